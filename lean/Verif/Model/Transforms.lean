import Verif.Model.Net
import Mathlib.Data.List.Sort
import Mathlib.Data.List.Lex

/-!
Model of `/repo/pymnet/transforms.py` and of `get_supra_adjacency_matrix` (net.py 623-654).

The source network is a dispatch table (`View`), so every function applies to `MultilayerNetwork` and
`MultiplexNetwork` objects alike. The result network is built inside the function by public calls; if
one of them raises, the exception leaves the function and the half-built network is unreachable.
-/

namespace Pymnet

open Py

/-- The network after a call inside a function body, or the exception that leaves the function. -/
def Outcome.toExcept {σ : Type} (r : Outcome σ) : Except Err σ :=
  match r.2 with
  | none => .ok r.1
  | some e => .error e

/-- `for x in l: s = f(s,x)`, the first exception leaves the loop. -/
def forE {σ β : Type} (f : σ → β → Except Err σ) : List β → σ → Except Err σ
  | [], s => .ok s
  | b :: t, s =>
    match f s b with
    | .error e => .error e
    | .ok s => forE f t s

/-- the number used in arithmetic when `net[...]` is a weight; a node object is a `TypeError`. -/
def Item.num {α W : Type} : Item α W → Except Err W
  | .weight w => .ok w
  | .node _ _ => .error .typeError

variable {α W : Type} [DecidableEq α] [DecidableEq W]

/-! ### aggregate -/

/-- `[edge[index] for index in edgeIndices]` with `edgeIndices` the indices `x` below `2*(aspects+1)`
with `x//2 not in aspects` (transforms.py 77, 79-81). All these indices are indices of the link part of
the edge tuple. -/
def keptIndices (aspects : Nat) (asp : List Nat) (link : List α) : List α :=
  ((List.range (2 * (aspects + 1))).filter fun x => x / 2 ∉ asp).filterMap fun i => link[i]?

/-- the loop body over the edges (transforms.py 79-83). -/
def aggregateEdge [Add W] (aspects : Nat) (asp : List Nat) (selfEdges : Bool) (m : MNet α W)
    (e : List α × W) : Except Err (MNet α W) :=
  let newEdge := keptIndices aspects asp e.1
  if selfEdges = true ∨ evens newEdge ≠ odds newEdge then
    match m.view.readItem newEdge with
    | .error x => .error x
    | .ok it =>
      match it.num with
      | .error x => .error x
      | .ok old => (m.setItem newEdge (old + e.2)).toExcept
  else .ok m

/-- the loop body over the node-layers (transforms.py 88-96). -/
def aggregateNodeLayer (aspects : Nat) (asp : List Nat) (m : MNet α W) (nl : List α) :
    Except Err (MNet α W) :=
  match nl with
  | [] => .error .indexError
  | n :: _ =>
    let newlayer := ((List.range' 1 aspects).filter fun x => x ∉ asp).filterMap fun a => nl[a]?
    (m.addNode n (some (.ofList newlayer))).toExcept

/-- `aggregate` (transforms.py 14-98) with `newNet=None`; `asp` is the tuple of aspects. A negative number
of aspects is an `AssertionError` of the constructor (net.py 89). -/
def View.aggregate [Add W] (v : View α W) (asp : List Nat) (selfEdges : Bool) : Except Err (MNet α W) :=
  if v.aspects < asp.length then .error .assertionError
  else if ¬ (∀ d ∈ asp, 0 < d ∧ d ≤ v.aspects + 1) then .error .assertionError
  else
    match forE (fun (m : MNet α W) n => (m.addNode n none).toExcept) (v.slices.headD [])
        (MNet.init (v.aspects - asp.length) v.noEdge v.directed v.fic) with
    | .error e => .error e
    | .ok m =>
      match v.edges with
      | .error e => .error e
      | .ok es =>
        match forE (aggregateEdge v.aspects asp selfEdges) es m with
        | .error e => .error e
        | .ok m =>
          if v.fic = false ∧ 0 < m.aspects then
            match v.nodeLayers with
            | .error e => .error e
            | .ok nls => forE (aggregateNodeLayer v.aspects asp) nls m
          else .ok m

/-! ### overlay_network -/

/-- the innermost body of `overlay_network` (transforms.py 116-117). -/
def overlayPair [LT α] [DecidableLT α] [Add W] (v : View α W) (s : α) (i : α) (m : MNet α W) (j : α) :
    Except Err (MNet α W) :=
  if v.directed = true ∨ j < i then
    match m.view.readItem [i, j] with
    | .error x => .error x
    | .ok a =>
      match a.num with
      | .error x => .error x
      | .ok old =>
        match v.readItem [i, j, s, s] with
        | .error x => .error x
        | .ok b =>
          match b.num with
          | .error x => .error x
          | .ok w => (m.setItem [i, j] (old + w)).toExcept
  else .ok m

/-- `overlay_network` (transforms.py 103-118). -/
def View.overlay [LT α] [DecidableLT α] [Add W] [Zero W] (v : View α W) : Except Err (MNet α W) :=
  if v.aspects ≠ 1 then .error .assertionError
  else
    forE (fun m s => forE (fun m i => forE (overlayPair v s i) (v.slices.headD []) m)
      (v.slices.headD []) m) (v.slices.getD 1 []) (MNet.init 0 0 false true)

/-! ### subnet -/

/-- `set(l)` -/
def toSet (l : List α) : List α := l.foldl sadd []

/-- `nodelayers` (transforms.py 156-161): for each index the selected names, all if `None`. -/
def selSets (slices : List (List α)) (sel : List (Option (List α))) : List (List α) :=
  (slices.zip sel).map fun p =>
    match p.2 with
    | none => p.1
    | some l => toSet l

/-- `reduce(and, (e in nodelayers[a] for a,e in enumerate(nl)))` (transforms.py 193, 225). -/
def inSets : List (List α) → List α → Bool
  | s :: ss, x :: xs => decide (x ∈ s) && inSets ss xs
  | _, _ => true

/-- the loop adding elementary layers (transforms.py 180-187). -/
def subnetLayers (v : View α W) : List (List α) → Nat → MNet α W → Except Err (MNet α W)
  | [], _, m => .ok m
  | s :: ss, a, m =>
    if v.fic = true ∨ a ≠ 0 then
      match forE (fun (m : MNet α W) x => if x ∈ v.slices.getD a [] then (m.addLayer x a).toExcept else .ok m) s m with
      | .error e => .error e
      | .ok m => subnetLayers v ss (a + 1) m
    else subnetLayers v ss (a + 1) m

/-- the product of the numbers of added elementary layers (transforms.py 187, 200); for node-aligned
networks. -/
def subnetCount (v : View α W) (sets : List (List α)) : Nat :=
  ((sets.zip v.slices).map fun p => (p.1.filter (· ∈ p.2)).length).prod

/-- `newNet[nl1][nl2]=net[nl1][nl2]` (transforms.py 219, 223, 227); with `test`, only if the value is not
`net.noEdge` (218-219). -/
def copyLink (v : View α W) (test : Bool) (nl1 : List α) (m : MNet α W) (nl2 : List α) : Except Err (MNet α W) :=
  match v.nodeGet nl1 (nl2.map .val) with
  | .error e => .error e
  | .ok it =>
    match it.num with
    | .error e => .error e
    | .ok w => if test = true ∧ w = v.noEdge then .ok m else (m.nodeSet nl1 nl2 w).toExcept

/-- the copying of the links of one node-layer (transforms.py 212-227): either by going through all
selected pairs or by going through the neighbours. -/
def copyNode (v : View α W) (sets : List (List α)) (total : Nat) (m : MNet α W) (nl1 : List α) :
    Except Err (MNet α W) :=
  match v.deg nl1 none with
  | .error e => .error e
  | .ok k =>
    if (total : Int) ≤ k then forE (copyLink v true nl1) (product sets) m
    else
      match v.iterTotal nl1 none with
      | .error e => .error e
      | .ok ns => forE (copyLink v false nl1) (ns.filter fun nl2 => inSets sets nl2) m

/-- `newNet.add_node(nl[0],layer=nl[1:])` (transforms.py 194-197). -/
def addNodeLayer (m : MNet α W) : List α → Except Err (MNet α W)
  | [] => .error .indexError
  | n :: l => (m.addNode n (some (.ofList l))).toExcept

/-- `subnet` (transforms.py 120-233) into a network `new` of type `MultilayerNetwork`. -/
def View.subnetInto (v : View α W) (sel : List (Option (List α))) (nolinks : Bool) (new : MNet α W) :
    Except Err (MNet α W) :=
  if sel.length ≠ v.aspects + 1 then .error .assertionError
  else if v.fic = false ∧ new.fic = true then .error .typeError
  else
    let sets := selSets v.slices sel
    match subnetLayers v sets 0 new with
    | .error e => .error e
    | .ok m =>
      match (if new.fic then .ok [] else v.nodeLayers) with
      | .error e => .error e
      | .ok nls =>
        let nls := nls.filter fun nl => inSets sets nl
        let total := if new.fic then subnetCount v sets else nls.length
        match (if new.fic then .ok m
            else forE addNodeLayer nls m) with
        | .error e => .error e
        | .ok m => if nolinks then .ok m else forE (copyNode v sets total) (product sets) m

/-- `subnet` of a `MultilayerNetwork` with `newNet=None` (transforms.py 170-174). -/
def MNet.subnet (m : MNet α W) (sel : List (Option (List α))) (nolinks : Bool) : Except Err (MNet α W) :=
  m.view.subnetInto sel nolinks (MNet.init m.aspects m.noEdge m.directed m.fic)

/-! ### relabel -/

/-- `dget` (transforms.py 271-275). -/
def dget (d : Dict α α) (e : α) : α := (Dict.get d e).getD e

/-- `layerNames` after the padding loop (transforms.py 288-290), `layerNames[i]`. -/
def padNames (aspects : Nat) (names : List (Dict α α)) : List (Dict α α) :=
  names ++ List.replicate (aspects - names.length) []

/-- `layer_to_indexlayer` (transforms.py 277-278), applied to names paired with their maps. -/
def renameAll (names : List (Dict α α)) (l : List α) : List α := List.zipWith dget names l

/-- the loop copying the elementary layers (transforms.py 307-309). -/
def relabelLayers : List (Dict α α) → List (List α) → Nat → MNet α W → Except Err (MNet α W)
  | d :: ds, s :: ss, a, m =>
    match forE (fun (m : MNet α W) x => (m.addLayer (dget d x) a).toExcept) s m with
    | .error e => .error e
    | .ok m => relabelLayers ds ss (a + 1) m
  | _, _, _, m => .ok m

/-- `newedge` (transforms.py 321-325). -/
def relabelLink (names : List (Dict α α)) : List α → List α
  | x :: y :: t =>
    match names with
    | d :: ds => dget d x :: dget d y :: relabelLink ds t
    | [] => []
  | _ => []

/-- the loop body over the node-layers (transforms.py 312-316). -/
def relabelNodeLayer (nodeNames : Dict α α) (names : List (Dict α α)) (n : MNet α W) : List α → Except Err (MNet α W)
  | [] => .error .indexError
  | x :: l => (n.addNode (dget nodeNames x) (some (.ofList (renameAll names l)))).toExcept

/-- `relabel` (transforms.py 254-339) of a `MultilayerNetwork`. A `dict` given as `layerNames` of a
one-aspect network is wrapped into a list by the code; here it is always the list. -/
def MNet.relabel (m : MNet α W) (nodeNames : Dict α α) (layerNames : List (Dict α α)) : Except Err (MNet α W) :=
  let names := padNames m.aspects layerNames
  let new : MNet α W := MNet.init m.aspects m.noEdge m.directed m.fic
  match forE (fun (n : MNet α W) x => (n.addNode (dget nodeNames x) none).toExcept) (m.slices.headD []) new with
  | .error e => .error e
  | .ok n =>
    match relabelLayers (names.take m.aspects) (m.slices.drop 1) 1 n with
    | .error e => .error e
    | .ok n =>
      match (if m.fic then .ok n
          else forE (relabelNodeLayer nodeNames names) m.nodeLayers n) with
      | .error e => .error e
      | .ok n =>
        match m.view.edges with
        | .error e => .error e
        | .ok es =>
          forE (fun (n : MNet α W) (e : List α × W) =>
            (n.setItem (relabelLink (nodeNames :: names.take m.aspects) e.1) e.2).toExcept) es n

/-! ### normalize -/

/-- `sorted(s)`; insertion sort, the result does not depend on the algorithm. -/
def pySorted {β : Type} [LinearOrder β] (s : List β) : List β := s.insertionSort (· ≤ ·)

/-- `{x: i+start for i,x in enumerate(sorted(s))}` (transforms.py 376-380); `idx` is the Python integer. -/
def indexMap [LinearOrder α] (idx : Int → α) (start : Int) (s : List α) : Dict α α :=
  ((pySorted s).zipIdx).foldl (fun d p => Dict.set d p.1 (idx (p.2 + start))) []

/-- the inversion of a map (transforms.py 384-390, 392-399). -/
def invertMap (d : Dict α α) : Dict α α := d.foldl (fun e p => Dict.set e p.2 p.1) []

/-- `normalize` (transforms.py 341-413): the new network and the two kinds of maps before the final
selection of what is returned; `nodesToIndices`, `layersToIndices` other than `False` keep the maps. -/
def MNet.normalize [LinearOrder α] (idx : Int → α) (m : MNet α W) (nodesToIndices layersToIndices : Option Bool)
    (nodeStart layerStart : Int) : Except Err (MNet α W × Dict α α × List (Dict α α)) :=
  let nodeNames := indexMap idx nodeStart (m.slices.headD [])
  let layerNames := (m.slices.drop 1).map (indexMap idx layerStart)
  match m.relabel nodeNames layerNames with
  | .error e => .error e
  | .ok n => .ok (n, if nodesToIndices = some false then invertMap nodeNames else nodeNames,
      if layersToIndices = some false then layerNames.map invertMap else layerNames)

/-! ### threshold -/

/-- The `method` argument of `threshold`. -/
inductive Method | ge | le | gt | lt | invalid
  deriving DecidableEq, Repr

/-- `accept_edge` (transforms.py 417-427). -/
def acceptEdge [LE W] [LT W] [DecidableLE W] [DecidableLT W] (w t : W) : Method → Except Err Bool
  | .ge => .ok (decide (t ≤ w))
  | .le => .ok (decide (w ≤ t))
  | .gt => .ok (decide (t < w))
  | .lt => .ok (decide (w < t))
  | .invalid => .error .exception

/-- the loop copying elementary layers (transforms.py 449-451). -/
def copyLayers : List (List α) → Nat → MNet α W → Except Err (MNet α W)
  | s :: ss, a, m =>
    match forE (fun (m : MNet α W) x => (m.addLayer x a).toExcept) s m with
    | .error e => .error e
    | .ok m => copyLayers ss (a + 1) m
  | [], _, m => .ok m

/-- `threshold` (transforms.py 416-469) of any network that is not a multiplex network without couplings.
In a network that is not node-aligned, the first node-layer raises a `NameError` (transforms.py 455). -/
def View.threshold [LE W] [LT W] [DecidableLE W] [DecidableLT W] (v : View α W) (t : W) (method : Method) :
    Except Err (MNet α W) :=
  match forE (fun (m : MNet α W) x => (m.addNode x none).toExcept) (v.slices.headD [])
      (MNet.init v.aspects v.noEdge v.directed v.fic) with
  | .error e => .error e
  | .ok m =>
    match copyLayers (v.slices.drop 1) 1 m with
    | .error e => .error e
    | .ok m =>
      match (if v.fic then .ok [] else v.nodeLayers) with
      | .error e => .error e
      | .ok nls =>
        if nls ≠ [] then .error .nameError
        else
          match v.edges with
          | .error e => .error e
          | .ok es =>
            forE (fun (m : MNet α W) (e : List α × W) =>
              match acceptEdge e.2 t method with
              | .error x => .error x
              | .ok true => (m.setItem e.1 e.2).toExcept
              | .ok false => .ok m) es m

/-! ### get_underlying_graph -/

/-- `get_underlying_graph` (transforms.py 571-610); `name` is `str` on node-layer tuples. -/
def View.underlying {β : Type} [DecidableEq β] (v : View α W) (name : List α → β) : Except Err (MNet β W) :=
  match v.nodeLayers with
  | .error e => .error e
  | .ok nls =>
    match forE (fun (m : MNet β W) nl => (m.addNode (name nl) none).toExcept) nls
        (MNet.init 0 v.noEdge v.directed true) with
    | .error e => .error e
    | .ok m =>
      match v.edges with
      | .error e => .error e
      | .ok es =>
        forE (fun (m : MNet β W) (e : List α × W) =>
          match linkToNodes e.1 with
          | .error x => .error x
          | .ok (n1, n2) => (m.nodeSet [name n1] [name n2] e.2).toExcept) es m

/-! ### supra-adjacency matrix -/

/-- the list `nodes` of `get_supra_adjacency_matrix` (net.py 640, 647): node-layers sorted by their
reversed tuples. -/
def View.supraNodes [LinearOrder α] (v : View α W) : List (List α) :=
  (pySorted (product (v.slices.reverse.map pySorted))).map List.reverse

/-- one entry of the matrix (net.py 644-645, 651-652). -/
def View.supraEntry [Zero W] (v : View α W) (includeCouplings : Bool) (i j : List α × Nat) : Except Err W :=
  if (if 0 < v.aspects then includeCouplings = true ∨ i.1.drop 1 = j.1.drop 1 else i.2 ≠ j.2) then
    match v.nodeGet i.1 (j.1.map .val) with
    | .error e => .error e
    | .ok it => it.num
  else .ok 0

/-- `[f x for x in l]`, first exception propagates. -/
def mapE {β γ : Type} (f : β → Except Err γ) : List β → Except Err (List γ)
  | [] => .ok []
  | b :: t =>
    match f b with
    | .error e => .error e
    | .ok r =>
      match mapE f t with
      | .error e => .error e
      | .ok rs => .ok (r :: rs)

/-- `get_supra_adjacency_matrix` (net.py 623-654): the rows of the matrix and the list of node-layers.
For monoplex networks the list holds bare names, here 1-tuples. -/
def View.supra [LinearOrder α] [Zero W] (v : View α W) (includeCouplings : Bool) :
    Except Err (List (List W) × List (List α)) :=
  match mapE (fun i => mapE (fun j => v.supraEntry includeCouplings i j) v.supraNodes.zipIdx) v.supraNodes.zipIdx with
  | .error e => .error e
  | .ok rows => .ok (rows, v.supraNodes)

end Pymnet
