import Verif.Model.PlexTransforms

/-!
Model of `randomize_nodes_by_layer` (`/repo/pymnet/transforms.py` 471-487): the nodes of every layer of a multiplex network are
permuted at random.
-/

namespace Pymnet

open Py

variable {α W : Type} [DecidableEq α] [DecidableEq W]

/-- `newinet[nodemap[e[0]],nodemap[e[1]]]=e[2]` (transforms.py 485-486). -/
def MPlex.shuffleEdge [Zero W] (L : LKey α) (nodemap : Dict α α) (new : MPlex α W) (e : List α × W) : Except Err (MPlex α W) :=
  match e.1 with
  | [i, j] =>
    match Dict.get nodemap i, Dict.get nodemap j with
    | some i', some j' => (new.childSetItem L i' j' e.2).toExcept
    | _, _ => .error .keyError
  | _ => .error .indexError

/-- the loop body over the layers (transforms.py 476-486). `random.shuffle(nodes)` is the argument `shuf`; since it permutes the list,
`nodes[i]` is never out of range and the dictionary `nodemap` is the list of the pairs. -/
def MPlex.shuffleLayer [Zero W] (p : MPlex α W) (shuf : LKey α → List α → List α) (new : MPlex α W) (L : LKey α) :
    Except Err (MPlex α W) :=
  match p.child? L with
  | none => .error .keyError
  | some c =>
    let nodes := c.slices.headD []
    let nodemap := nodes.zip (shuf L nodes)
    match forE (fun (new : MPlex α W) n => (new.childAddNode L n).toExcept) nodes new with
    | .error e => .error e
    | .ok new =>
      match c.view.edges with
      | .error e => .error e
      | .ok es => forE (MPlex.shuffleEdge L nodemap) es new

/-- `randomize_nodes_by_layer` (transforms.py 471-487) of a `MultiplexNetwork`. -/
def MPlex.randomizeNodes [Zero W] (p : MPlex α W) (shuf : LKey α → List α → List α) : Except Err (MPlex α W) :=
  if p.aspects ≠ 1 then .error .assertionError
  else
    match p.subnet [some [], some (p.iterLayers.flatMap LKey.toList)] false with
    | .error e => .error e
    | .ok new => forE (MPlex.shuffleLayer p shuf) (Dict.keys p.A) new

end Pymnet
