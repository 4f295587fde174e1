import Verif.Model.Plex
import Verif.Model.Transforms

/-!
Model of `subnet` and `relabel` (`/repo/pymnet/transforms.py` 120-233, 254-339) for a `MultiplexNetwork`, whose result
is a `MultiplexNetwork`.
-/

namespace Pymnet

open Py

variable {α W : Type} [DecidableEq α] [DecidableEq W]

/-- The coupling is a network. -/
def Coupling.isNet : Coupling α W → Bool
  | .net _ => true
  | _ => false

/-- `MultiplexNetwork(couplings=net.couplings,...)` (transforms.py 165-168, 299-302): the couplings are the normalised
tuples of the network, and the tuple `(net,)` of a network fails `assert coupling[0] in coupling_types` (net.py 942). -/
def MPlex.emptyCopy (p : MPlex α W) : Except Err (MPlex α W) :=
  if p.couplings.any Coupling.isNet then .error .assertionError
  else .ok (MPlex.init p.couplings p.directed p.noEdge p.fic)

namespace MPlex

/-- `newNet[nl1][nl2]=net[nl1][nl2]` (transforms.py 214-223) for an intra-layer network `newNet=new.A[L]`; with `test`,
only if the value is not `net.noEdge`. -/
def copyLinkA [Zero W] (v : View α W) (L : LKey α) (test : Bool) (nl1 : List α) (new : MPlex α W) (nl2 : List α) :
    Except Err (MPlex α W) :=
  match v.nodeGet nl1 (nl2.map .val) with
  | .error e => .error e
  | .ok it =>
    match it.num with
    | .error e => .error e
    | .ok w =>
      if test = true ∧ w = v.noEdge then .ok new
      else
        match nl1, nl2 with
        | [i], [j] => (new.childSetItem L i j w).toExcept
        | _, _ => .error .keyError

/-- the copying of the links of one node (transforms.py 212-223). -/
def copyNodeA [Zero W] (v : View α W) (L : LKey α) (sets : List (List α)) (total : Nat) (new : MPlex α W) (nl1 : List α) :
    Except Err (MPlex α W) :=
  match v.deg nl1 none with
  | .error e => .error e
  | .ok k =>
    if (total : Int) ≤ k then forE (copyLinkA v L true nl1) (product sets) new
    else
      match v.iterTotal nl1 none with
      | .error e => .error e
      | .ok ns => forE (copyLinkA v L false nl1) (ns.filter fun nl2 => inSets sets nl2) new

/-- `subnet(net,nodes,newNet=new.A[L],nolinks=False)` (transforms.py 120-233) for a network without aspects: the nodes
are added with `add_layer(x,0)`, which calls `add_node` (net.py 236). -/
def subnetA [Zero W] (v : View α W) (nodes : List α) (L : LKey α) (new : MPlex α W) : Except Err (MPlex α W) :=
  if v.aspects ≠ 0 then .error .assertionError
  else
    match forE (fun (p : MPlex α W) x => if x ∈ v.slices.headD [] then (p.childAddNode L x).toExcept else .ok p) nodes new with
    | .error e => .error e
    | .ok p => forE (copyNodeA v L [nodes] (subnetCount v [nodes])) (product [nodes]) p

/-- the loop adding elementary layers (transforms.py 180-187). -/
def subnetLayersP [Zero W] (p : MPlex α W) : List (List α) → Nat → MPlex α W → Except Err (MPlex α W)
  | [], _, m => .ok m
  | s :: ss, a, m =>
    if p.fic = true ∨ a ≠ 0 then
      match forE (fun (m : MPlex α W) x => if x ∈ p.slices.getD a [] then (m.addLayer x a).toExcept else .ok m) s m with
      | .error e => .error e
      | .ok m => subnetLayersP p ss (a + 1) m
    else subnetLayersP p ss (a + 1) m

/-- `newNet.add_node(nl[0],layer=nl[1:])` (transforms.py 194-197). -/
def addNodeLayerP [Zero W] (m : MPlex α W) : List α → Except Err (MPlex α W)
  | [] => .error .indexError
  | n :: l => (m.addNode n (some (.ofList l))).toExcept

/-- the copying of one layer (transforms.py 206-209). -/
def subnetLayerA [Zero W] (p : MPlex α W) (nodes : List α) (m : MPlex α W) (s : List α) : Except Err (MPlex α W) :=
  match p.child? (.ofList s) with
  | none => .error .keyError
  | some c =>
    match m.child? (.ofList s) with
    | none => .error .keyError
    | some _ => subnetA c.view nodes (.ofList s) m

/-- `subnet` (transforms.py 120-233) of a `MultiplexNetwork` with `newNet=None`. -/
def subnet [Zero W] (p : MPlex α W) (sel : List (Option (List α))) (nolinks : Bool) : Except Err (MPlex α W) :=
  if sel.length ≠ p.aspects + 1 then .error .assertionError
  else
    let sets := selSets p.slices sel
    match p.emptyCopy with
    | .error e => .error e
    | .ok m =>
      match subnetLayersP p sets 0 m with
      | .error e => .error e
      | .ok m =>
        match (if p.fic then .ok [] else p.nodeLayers) with
        | .error e => .error e
        | .ok nls =>
          match forE addNodeLayerP (nls.filter fun nl => inSets sets nl) m with
          | .error e => .error e
          | .ok m =>
            if nolinks then .ok m else forE (subnetLayerA p (sets.headD [])) (product (sets.drop 1)) m

/-! ### relabel -/

/-- the loop copying the elementary layers (transforms.py 307-309). -/
def relabelLayersP [Zero W] : List (Dict α α) → List (List α) → Nat → MPlex α W → Except Err (MPlex α W)
  | d :: ds, s :: ss, a, m =>
    match forE (fun (m : MPlex α W) x => (m.addLayer (dget d x) a).toExcept) s m with
    | .error e => .error e
    | .ok m => relabelLayersP ds ss (a + 1) m
  | _, _, _, m => .ok m

/-- the loop body over the node-layers (transforms.py 311-315). -/
def relabelNodeLayerP [Zero W] (nodeNames : Dict α α) (names : List (Dict α α)) (m : MPlex α W) :
    List α → Except Err (MPlex α W)
  | [] => .error .indexError
  | x :: l => (m.addNode (dget nodeNames x) (some (.ofList (renameAll names l)))).toExcept

/-- `newNet[...]=net[(node,neigh)+layertuple]` (transforms.py 333). -/
def relabelLinkA [Zero W] [IntNames α] (p : MPlex α W) (nodeNames : Dict α α) (names : List (Dict α α)) (s : List α) (i : α)
    (m : MPlex α W) (nl : List α) : Except Err (MPlex α W) :=
  match nl with
  | [j] =>
    match p.view.readItem (i :: j :: s) with
    | .error e => .error e
    | .ok it =>
      match it.num with
      | .error e => .error e
      | .ok w => (m.setItem (dget nodeNames i :: dget nodeNames j :: renameAll names s) w).toExcept
  | _ => .error .keyError

/-- the loop over the links of one layer (transforms.py 331-333). -/
def relabelLayerA [Zero W] [IntNames α] (p : MPlex α W) (nodeNames : Dict α α) (names : List (Dict α α)) (m : MPlex α W)
    (L : LKey α) : Except Err (MPlex α W) :=
  match p.child? L with
  | none => .error .keyError
  | some c =>
    forE (fun m i => forE (relabelLinkA p nodeNames names L.toList i) (c.iterTotal [i] none) m) (c.slices.headD []) m

/-- `relabel` (transforms.py 254-335) of a `MultiplexNetwork`; as in `MNet.relabel`, `layerNames` is the list of maps. -/
def relabel [Zero W] [IntNames α] (p : MPlex α W) (nodeNames : Dict α α) (layerNames : List (Dict α α)) :
    Except Err (MPlex α W) :=
  let names := padNames p.aspects layerNames
  match p.emptyCopy with
  | .error e => .error e
  | .ok m =>
    match forE (fun (m : MPlex α W) x => (m.addNode (dget nodeNames x) none).toExcept) (p.slices.headD []) m with
    | .error e => .error e
    | .ok m =>
      match relabelLayersP (names.take p.aspects) (p.slices.drop 1) 1 m with
      | .error e => .error e
      | .ok m =>
        match (if p.fic then .ok [] else p.nodeLayers) with
        | .error e => .error e
        | .ok nls =>
          match forE (relabelNodeLayerP nodeNames names) nls m with
          | .error e => .error e
          | .ok m => forE (relabelLayerA p nodeNames names) p.iterLayers m

end MPlex

end Pymnet
