import Verif.Model.Transforms

/-!
Model of `/repo/pymnet/isomorphisms/isomcore.py`: the auxiliary graph of a network, and the comparison of
networks with it. The graph isomorphism program (`nxbackend.py`, `blissbackend.py`) is a parameter.
-/

namespace Pymnet

open Py

variable {α W : Type} [DecidableEq α] [DecidableEq W]

/-- A graph with an attribute `color` on its vertices (nxbackend.py 10-31: `networkx.Graph`). Vertices
created by `add_edge` have no colour. An edge is listed as it was passed to `add_edge`, once per call. -/
structure CGraph where
  nodes : Dict Nat (Option Nat)
  edges : List (Nat × Nat)
  deriving DecidableEq, Repr

/-- `add_node(name,color)` (nxbackend.py 20-25). -/
def CGraph.addNode (g : CGraph) (i c : Nat) : CGraph := { g with nodes := Dict.set g.nodes i (some c) }

/-- a vertex mentioned by `add_edge` exists from then on (networkx). -/
def CGraph.touch (ns : Dict Nat (Option Nat)) (i : Nat) : Dict Nat (Option Nat) :=
  if Dict.has ns i then ns else Dict.set ns i none

/-- `add_link(node1,node2)` (nxbackend.py 27-31). -/
def CGraph.addLink (g : CGraph) (i j : Nat) : CGraph where
  nodes := CGraph.touch (CGraph.touch g.nodes i) j
  edges := g.edges ++ [(i, j)]

/-- A key of `nodemap`: what `iter_node_layers` and the iteration over a node object yield (net.py 582-597,
770-777): tuples, but bare names when iterating the neighbours in a monoplex network. -/
inductive AuxKey (α : Type)
  | tup (l : List α)
  | bare (x : α)
  deriving DecidableEq, Repr

/-- The part of the builder that changes while the graph is built (isomcore.py 20-25). -/
structure AuxState (α : Type) where
  nodemap : Dict (AuxKey α) Nat
  auxnodemap : Dict (Nat × α) Nat
  graph : CGraph
  deriving DecidableEq, Repr

/-- `_get_node_id` (isomcore.py 36-40). -/
def AuxState.nodeId (s : AuxState α) (k : AuxKey α) : Except Err (AuxState α × Nat) :=
  match Dict.get s.nodemap k with
  | some i => .ok (s, i)
  | none =>
    if s.auxnodemap.length = 0 then
      .ok ({ s with nodemap := Dict.set s.nodemap k s.nodemap.length }, s.nodemap.length)
    else .error .assertionError

/-- `_get_auxnode_id` (isomcore.py 42-45). -/
def AuxState.auxId (s : AuxState α) (k : Nat × α) : AuxState α × Nat :=
  match Dict.get s.auxnodemap k with
  | some i => (s, i)
  | none =>
    ({ s with auxnodemap := Dict.set s.auxnodemap k (s.nodemap.length + s.auxnodemap.length) },
      s.nodemap.length + s.auxnodemap.length)

/-- `_slice_node_layer_not_allowed` (isomcore.py 53-57); all indices are in range. -/
def pick (asp : List Nat) (nl : List α) : List α := asp.filterMap fun i => nl[i]?

/-- `dict(((x,i+off) for i,x in enumerate(l)))` (isomcore.py 75, 78). -/
def enumDict {κ : Type} [DecidableEq κ] (l : List κ) (off : Nat) : Dict κ Nat :=
  (l.zipIdx off).foldl (fun d p => Dict.set d p.1 p.2) []

/-- `colormap` (isomcore.py 69-75). `_assert_full_order` (59-61) holds because names are linearly ordered. -/
def colorMap [LinearOrder α] (nasp : List Nat) (nls : List (List α)) : Dict (List α) Nat :=
  enumDict (pySorted (nls.map (pick nasp)).dedup) 0

/-- a node-layer becomes a vertex (isomcore.py 83-87). -/
def auxAddNode (nasp : List Nat) (colormap : Dict (List α) Nat) (s : AuxState α) (nl : List α) :
    Except Err (AuxState α) :=
  match s.nodeId (.tup nl) with
  | .error e => .error e
  | .ok (s, i) =>
    match Dict.get colormap (pick nasp nl) with
    | none => .error .keyError
    | some c => .ok { s with graph := s.graph.addNode i c }

/-- What iterating a node object yields for a neighbour (net.py 770-777). -/
def neighKey (aspects : Nat) (nl : List α) : AuxKey α :=
  match aspects, nl with
  | 0, [x] => .bare x
  | _, _ => .tup nl

/-- one link becomes an edge (isomcore.py 92-94). -/
def auxAddEdge (aspects : Nat) (nl1 : List α) (s : AuxState α) (nl2 : List α) : Except Err (AuxState α) :=
  match s.nodeId (.tup nl1) with
  | .error e => .error e
  | .ok (s, i) =>
    match s.nodeId (neighKey aspects nl2) with
    | .error e => .error e
    | .ok (s, j) => .ok { s with graph := s.graph.addLink i j }

/-- the links of a node-layer (isomcore.py 91-94). -/
def View.auxAddEdges (v : View α W) (s : AuxState α) (nl1 : List α) : Except Err (AuxState α) :=
  match v.iterTotal nl1 none with
  | .error e => .error e
  | .ok ns => forE (auxAddEdge v.aspects nl1) ns s

/-- one auxiliary vertex (isomcore.py 101-103). -/
def auxAddAux (auxcolormap : Dict Nat Nat) (a : Nat) (s : AuxState α) (x : α) : Except Err (AuxState α) :=
  match s.auxId (a, x) with
  | (s, i) =>
    match Dict.get auxcolormap a with
    | none => .error .keyError
    | some c => .ok { s with graph := s.graph.addNode i c }

/-- the auxiliary vertices of an aspect (isomcore.py 100-103). -/
def View.auxAddAspect (v : View α W) (auxcolormap : Dict Nat Nat) (s : AuxState α) (a : Nat) : Except Err (AuxState α) :=
  match v.slices[a]? with
  | none => .error .indexError
  | some sl => forE (auxAddAux auxcolormap a) sl s

/-- one auxiliary edge (isomcore.py 108-110). -/
def auxAddAuxEdge (nl : List α) (s : AuxState α) (a : Nat) : Except Err (AuxState α) :=
  match s.nodeId (.tup nl) with
  | .error e => .error e
  | .ok (s, i) =>
    match nl[a]? with
    | none => .error .indexError
    | some x =>
      match s.auxId (a, x) with
      | (s, j) => .ok { s with graph := s.graph.addLink i j }

/-- An `AuxiliaryGraphBuilder` object (isomcore.py 11-34). -/
structure AuxGraph (α : Type) where
  aspects : Nat
  slices : List (List α)
  asp : List Nat
  nasp : List Nat
  colormap : Dict (List α) Nat
  auxcolormap : Dict Nat Nat
  nodemap : Dict (AuxKey α) Nat
  auxnodemap : Dict (Nat × α) Nat
  graph : CGraph
  deriving DecidableEq, Repr

/-- `allowed_aspects`, `None` standing for `"all"` (isomcore.py 15-16). -/
def allowedAspects (aspects : Nat) : Option (List Nat) → List Nat
  | none => List.range (aspects + 1)
  | some l => l

/-- `_build_graph_general` (isomcore.py 63-110), given the node-layers. -/
def View.buildAux [LinearOrder α] (v : View α W) (asp nasp : List Nat) (nls : List (List α)) :
    Except Err (AuxState α) :=
  match forE (auxAddNode nasp (colorMap nasp nls)) nls ⟨[], [], ⟨[], []⟩⟩ with
  | .error e => .error e
  | .ok s =>
    match forE v.auxAddEdges nls s with
    | .error e => .error e
    | .ok s =>
      match forE (v.auxAddAspect (enumDict asp (colorMap nasp nls).length)) asp s with
      | .error e => .error e
      | .ok s => forE (fun s nl => forE (auxAddAuxEdge nl) asp s) nls s

/-- `AuxiliaryGraphBuilder(net,allowed_aspects)` (isomcore.py 11-34, 63-110). -/
def View.auxGraph [LinearOrder α] (v : View α W) (allowed : Option (List Nat)) : Except Err (AuxGraph α) :=
  if v.directed then .error .assertionError
  else
    let al := allowedAspects v.aspects allowed
    let asp := pySorted al
    let nasp := (List.range (v.aspects + 1)).filter fun a => a ∉ al
    match v.nodeLayers with
    | .error e => .error e
    | .ok nls =>
      match v.buildAux asp nasp nls with
      | .error e => .error e
      | .ok s =>
        .ok ⟨v.aspects, v.slices, asp, nasp, colorMap nasp nls, enumDict asp (colorMap nasp nls).length,
          s.nodemap, s.auxnodemap, s.graph⟩

/-- `d == e` for dictionaries. -/
def dictEq {κ ν : Type} [DecidableEq κ] [DecidableEq ν] (d e : Dict κ ν) : Bool :=
  decide (d.length = e.length) && d.all fun p => decide (Dict.get e p.1 = some p.2)

/-- `compare_labels` (isomcore.py 112-114). -/
def AuxGraph.compareLabels (A B : AuxGraph α) : Except Err Bool :=
  if dictEq A.auxcolormap B.auxcolormap then .ok (dictEq A.colormap B.colormap) else .error .assertionError

/-- `compare` (isomcore.py 117-121); `match?` is the backend: a colour preserving isomorphism, if there is one
(nxbackend.py 33-46, blissbackend.py 26-27, 44-45). -/
def AuxGraph.compare (match? : CGraph → CGraph → Option (Dict Nat Nat)) (A B : AuxGraph α) : Except Err Bool :=
  if A.asp = B.asp ∧ A.nasp = B.nasp then
    match A.compareLabels B with
    | .error e => .error e
    | .ok false => .ok false
    | .ok true => .ok (match? A.graph B.graph).isSome
  else .error .assertionError

/-- `is_isomorphic` (isomorphisms/\_\_init\_\_.py 50-86). -/
def isIsomorphic [LinearOrder α] (match? : CGraph → CGraph → Option (Dict Nat Nat)) (v w : View α W)
    (allowed : Option (List Nat)) : Except Err Bool :=
  match v.auxGraph allowed with
  | .error e => .error e
  | .ok A =>
    match w.auxGraph allowed with
    | .error e => .error e
    | .ok B => A.compare match? B

/-- one entry of the permutations (isomcore.py 142-148, 172-178); `inv` is `invauxnodemap`. -/
def permEntry (perm : Dict Nat Nat) (inv : Dict Nat (Nat × α)) (includeFixed : Bool) (m : List (Dict α α))
    (p : (Nat × α) × Nat) : Except Err (List (Dict α α)) :=
  match Dict.get perm p.2 with
  | none => .error .keyError
  | some j =>
    match Dict.get inv j with
    | none => .error .keyError
    | some (na, nx) =>
      let m' := if p.1.2 ≠ nx ∨ includeFixed = true then m.modify p.1.1 (fun d => Dict.set d p.1.2 nx) else m
      if p.1.1 = na then .ok m' else .error .assertionError

/-- the aspects that are not permuted (isomcore.py 150-154, 180-184). -/
def fixedAspects (slices : List (List α)) (nasp : List Nat) (m : List (Dict α α)) : List (Dict α α) :=
  nasp.foldl (fun m a => ((slices[a]?).getD []).foldl (fun m x => m.modify a fun d => Dict.set d x x) m) m

/-- the permutations of the elementary layers given by a map of the vertices (isomcore.py 135-156, 163-186). -/
def AuxGraph.perms (A B : AuxGraph α) (perm : Dict Nat Nat) (includeFixed : Bool) : Except Err (List (Dict α α)) :=
  let inv := B.auxnodemap.foldl (fun d p => Dict.set d p.2 p.1) []
  match forE (permEntry perm inv includeFixed) A.auxnodemap (List.replicate (A.aspects + 1) []) with
  | .error e => .error e
  | .ok m => .ok (if includeFixed then fixedAspects A.slices A.nasp m else m)

/-- `get_isomorphism` (isomorphisms/\_\_init\_\_.py 171-212, isomcore.py 159-189); `None` if the networks are not
isomorphic. -/
def getIsomorphism [LinearOrder α] (match? : CGraph → CGraph → Option (Dict Nat Nat)) (v w : View α W)
    (allowed : Option (List Nat)) (includeFixed : Bool) : Except Err (Option (List (Dict α α))) :=
  match v.auxGraph allowed with
  | .error e => .error e
  | .ok A =>
    match w.auxGraph allowed with
    | .error e => .error e
    | .ok B =>
      match A.compare match? B with
      | .error e => .error e
      | .ok false => .ok none
      | .ok true =>
        match match? A.graph B.graph with
        | none => .error .typeError
        | some perm =>
          match A.perms B perm includeFixed with
          | .error e => .error e
          | .ok m => .ok (some m)

/-- `get_automorphism_generators` (isomorphisms/\_\_init\_\_.py 128-167, isomcore.py 133-157); `gens` are the vertex
permutations that the backend yields for the graph (blissbackend.py 35-42). -/
def automorphismGenerators [LinearOrder α] (gens : CGraph → List (Dict Nat Nat)) (v : View α W)
    (allowed : Option (List Nat)) (includeFixed : Bool) : Except Err (List (List (Dict α α))) :=
  match v.auxGraph allowed with
  | .error e => .error e
  | .ok A => forE (fun l perm => match A.perms A perm includeFixed with
      | .error e => .error e
      | .ok m => .ok (l ++ [m])) (gens A.graph) []

/-- `get_complete_invariant` (isomorphisms/\_\_init\_\_.py 88-124, isomcore.py 124-131); `canon` is the canonical form of
the backend (blissbackend.py 29-30). Pairs of a colour and its number sort by the colour. -/
def completeInvariant {β : Type} [LinearOrder α] (canon : CGraph → β) (v : View α W) (allowed : Option (List Nat)) :
    Except Err (List (List α × Nat) × β) :=
  match v.auxGraph allowed with
  | .error e => .error e
  | .ok A => .ok (A.colormap.insertionSort (fun p q => p.1 ≤ q.1), canon A.graph)

end Pymnet
