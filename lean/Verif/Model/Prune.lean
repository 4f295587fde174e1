import Verif.Model.Diagnostics
import Verif.Model.Plex

/-!
Model of the rest of `/repo/pymnet/diagnostics.py`: the densities and degrees of the intra-layer networks
of a multiplex network, the overlap degrees and the shortest paths between nodes of which only some
aspects are given.
-/

namespace Pymnet

open Py

variable {α W : Type} [DecidableEq α] [DecidableEq W]

/-! ### Intra-layer densities and degrees -/

/-- `d[layer]=f(net.A[layer])` (diagnostics.py 66, 88). -/
def MPlex.noteLayer {β : Type} (f : View α W → Except Err β) (p : MPlex α W) (d : Dict (LKey α) β) (L : LKey α) :
    Except Err (Dict (LKey α) β) :=
  match p.child? L with
  | none => .error .keyError
  | some c =>
    match f c.view with
    | .error e => .error e
    | .ok x => .ok (Dict.set d L x)

/-- `multiplex_density` (diagnostics.py 60-67). -/
def MPlex.density (p : MPlex α W) : Except Err (Dict (LKey α) ℚ) :=
  forE (MPlex.noteLayer View.density p) p.iterLayers []

/-- `multiplex_degs(net)` with `degstype="distribution"` (diagnostics.py 69-89). -/
def MPlex.degs (p : MPlex α W) : Except Err (Dict (LKey α) (Dict Int Nat)) :=
  forE (MPlex.noteLayer View.degs p) p.iterLayers []

/-- `multiplex_degs(net,degstype="nodes")` (diagnostics.py 69-89). -/
def MPlex.degsNodes (p : MPlex α W) : Except Err (Dict (LKey α) (Dict (List α) Int)) :=
  forE (MPlex.noteLayer View.degsNodes p) p.iterLayers []

/-- `overlap_degs` (diagnostics.py 91-127): `nodes` and `layers` are read, then the name `subnet` is looked
up; diagnostics.py imports no such name (lines 1-3), so the call raises `NameError` and the rest of the
body is never run. `net.slices[1]` raises `IndexError` first if the network has no aspects. -/
def overlapDegs (slices : List (List α)) : Except Err (Dict (List α) (Dict (List α) Int)) :=
  match slices[0]? with
  | none => .error .indexError
  | some _ =>
    match slices[1]? with
    | none => .error .indexError
    | some _ => .error .nameError

/-! ### Shortest paths between nodes of which only some aspects are given -/

/-- the body of the loop over the aspects (diagnostics.py 166-171): the choices for aspect `a` of the
source `s`. A `None` in an aspect that is not in `aaspects` is taken to name nothing (in a
`MultilayerNetwork` no link has the name `None`, so the degree tested in line 173 is 0). -/
def View.choices (v : View α W) (aasp : List Nat) (s : List (Option α)) (a : Nat) : Except Err (List α) :=
  match s[a]? with
  | none => .error .indexError
  | some x =>
    if a ∈ aasp then
      match x with
      | some _ => .error .assertionError
      | none =>
        match v.slices[a]? with
        | none => .error .indexError
        | some l => .ok l
    else .ok x.toList

/-- `layers.append(...)` (diagnostics.py 169, 171). -/
def View.addChoice (v : View α W) (aasp : List Nat) (s : List (Option α)) (ls : List (List α)) (a : Nat) :
    Except Err (List (List α)) :=
  match v.choices aasp s a with
  | .error e => .error e
  | .ok l => .ok (ls ++ [l])

/-- `if net[nl].deg()>0: nsources.append(nl)` (diagnostics.py 173-174). -/
def View.addSource (v : View α W) (acc : List (List α)) (nl : List α) : Except Err (List (List α)) :=
  match v.itemDeg nl with
  | .error e => .error e
  | .ok k => .ok (if 0 < k then acc ++ [nl] else acc)

/-- the body of the loop over the sources (diagnostics.py 165-174). -/
def View.addSources (v : View α W) (aasp : List Nat) (acc : List (List α)) (s : List (Option α)) :
    Except Err (List (List α)) :=
  match forE (v.addChoice aasp s) (List.range (v.aspects + 1)) [] with
  | .error e => .error e
  | .ok ls => forE v.addSource (product ls) acc

/-- `select_aspects` (diagnostics.py 178-183). -/
def selectAspects (nl : List α) (aasp : List Nat) : List α :=
  (List.range nl.length).foldl (fun nnl a => if a ∉ aasp then nnl ++ (nl[a]?).toList else nnl) []

/-- the loop that finds the least distances (diagnostics.py 187-191). -/
def leastDist [LT W] [DecidableLT W] (aasp : List Nat) (d : Dict (List α) W) : Dict (List α) W :=
  d.foldl (fun nd p =>
    match Dict.get nd (selectAspects p.1 aasp) with
    | none => Dict.set nd (selectAspects p.1 aasp) p.2
    | some t => if p.2 < t then Dict.set nd (selectAspects p.1 aasp) p.2 else nd) []

/-- A `for` loop whose body may not end within the given depth of recursion (`none`). -/
def forO {σ β : Type} (f : σ → β → Option (Except Err σ)) : List β → σ → Option (Except Err σ)
  | [], s => some (.ok s)
  | b :: l, s =>
    match f s b with
    | none => none
    | some (.error e) => some (.error e)
    | some (.ok s') => forO f l s'

/-- `net[node].deg_in()` (net.py 488-515, 705-711). -/
def View.itemDegIn (v : View α W) (nl : List α) : Except Err Int :=
  match v.getItem (nl.map .val) with
  | .error e => .error e
  | .ok (.weight _) => .error .attributeError
  | .ok (.node n ds) => v.degIn n ds

/-- `ntree[neigh][node]=otree[neigh][node]` (diagnostics.py 196). -/
def copyTreeLink (otree ntree : MNet α W) (neigh node : List α) : Except Err (MNet α W) :=
  match otree.view.nodeGet neigh (node.map .val) with
  | .error e => .error e
  | .ok it =>
    match it.num with
    | .error e => .error e
    | .ok w => (ntree.nodeSet neigh node w).toExcept

/-- the body of the loop of `build_path` (diagnostics.py 196-198); `rec` is the recursive call. -/
def buildStep (rec : MNet α W → List α → Option (Except Err (MNet α W))) (otree : MNet α W) (node : List α)
    (ntree : MNet α W) (neigh : List α) : Option (Except Err (MNet α W)) :=
  match copyTreeLink otree ntree neigh node with
  | .error e => some (.error e)
  | .ok t =>
    match t.view.itemDegIn neigh with
    | .error e => some (.error e)
    | .ok k => if k = 0 then rec t neigh else some (.ok t)

/-- `build_path` (diagnostics.py 194-198) with recursion of at most the given depth; the result is the tree
`ntree` after the call. -/
def buildPath (otree : MNet α W) : Nat → MNet α W → List α → Option (Except Err (MNet α W))
  | 0, _, _ => none
  | n + 1, ntree, node =>
    match otree.view.iterIn node none with
    | .error e => some (.error e)
    | .ok ns => forO (buildStep (buildPath otree n) otree node) ns ntree

/-- the body of the last loop (diagnostics.py 206-210). -/
def pruneStep (aasp : List Nat) (nd : Dict (List α) W) (forest : MNet α W) (depth : Nat) (nf : MNet α W)
    (p : List α × W) : Option (Except Err (MNet α W)) :=
  match Dict.get nd (selectAspects p.1 aasp) with
  | none => some (.error .keyError)
  | some t => if t = p.2 then buildPath forest depth nf p.1 else some (.ok nf)

/-- what is done with the result of `dijkstra` (diagnostics.py 185-213). -/
def pruneForest [LT W] [DecidableLT W] [One W] [Neg W] (aspects : Nat) (aasp : List Nat) (depth : Nat)
    (d : Dict (List α) W) (forest : MNet α W) : Option (Except Err (Dict (List α) W × MNet α W)) :=
  match forO (pruneStep aasp (leastDist aasp d) forest depth) d (MNet.init aspects (-1) true false) with
  | none => none
  | some (.error e) => some (.error e)
  | some (.ok f) => some (.ok (leastDist aasp d, f))

/-- `dijkstra_mlayer_prune` (diagnostics.py 162-213); `fuel` bounds the iterations of `dijkstra` and `depth`
the recursion of `build_path`. -/
def View.dijkstraPrune [LE W] [DecidableLE W] [LT W] [DecidableLT W] [Add W] [Zero W] [One W] [Neg W]
    (pop : List (QEntry α W) → QEntry α W × List (QEntry α W)) (v : View α W) (sources : List (List (Option α)))
    (aasp : List Nat) (fuel depth : Nat) : Option (Except Err (Dict (List α) W × MNet α W)) :=
  match forE (v.addSources aasp) sources [] with
  | .error e => some (.error e)
  | .ok ns =>
    match v.dijkstra pop ns fuel with
    | none => none
    | some (.error e) => some (.error e)
    | some (.ok (d, forest)) => pruneForest v.aspects aasp depth d forest

end Pymnet
