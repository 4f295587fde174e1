import Verif.Model.Transforms
import Mathlib.Algebra.Field.Rat

/-!
Model of `/repo/pymnet/diagnostics.py`: degree distributions, density and shortest paths. The functions
take a dispatch table (`View`), so they apply to `MultilayerNetwork` and `MultiplexNetwork` objects.
-/

namespace Pymnet

open Py

variable {α W : Type} [DecidableEq α] [DecidableEq W]

/-! ### Degree distributions -/

/-- what `the_iterator` yields (diagnostics.py 22-25); bare names of monoplex networks are 1-tuples. -/
def View.degsIter (v : View α W) : Except Err (List (List α)) :=
  if v.aspects = 0 then .ok ((v.slices.headD []).map fun x => [x]) else v.nodeLayers

/-- `net[node].deg()` (net.py 488-515, 704-709). -/
def View.itemDeg (v : View α W) (nl : List α) : Except Err Int :=
  match v.getItem (nl.map .val) with
  | .error e => .error e
  | .ok (.weight _) => .error .attributeError
  | .ok (.node n ds) => v.deg n ds

/-- `degs[d]=degs.get(d,0)+1` (diagnostics.py 28-30). -/
def View.countDeg (v : View α W) (D : Dict Int Nat) (nl : List α) : Except Err (Dict Int Nat) :=
  match v.itemDeg nl with
  | .error e => .error e
  | .ok k => .ok (Dict.set D k ((Dict.get D k).getD 0 + 1))

/-- `degs[node]=net[node].deg()` (diagnostics.py 32-33). -/
def View.noteDeg (v : View α W) (D : Dict (List α) Int) (nl : List α) : Except Err (Dict (List α) Int) :=
  match v.itemDeg nl with
  | .error e => .error e
  | .ok k => .ok (Dict.set D nl k)

/-- `degs(net)` with `degstype="distribution"` (diagnostics.py 4-36). -/
def View.degs (v : View α W) : Except Err (Dict Int Nat) :=
  match v.degsIter with
  | .error e => .error e
  | .ok nls => forE v.countDeg nls []

/-- `degs(net,degstype="nodes")` (diagnostics.py 4-36). -/
def View.degsNodes (v : View α W) : Except Err (Dict (List α) Int) :=
  match v.degsIter with
  | .error e => .error e
  | .ok nls => forE v.noteDeg nls []

/-! ### Density -/

/-- `pedges` of a node-aligned network (diagnostics.py 48-55). -/
def View.possibleEdges (v : View α W) : ℚ :=
  let nl : ℚ := (v.slices.headD []).length * ((v.slices.drop 1).map fun s => ((s.length : Nat) : ℚ)).prod
  if v.directed then nl * (nl - 1) else (nl * (nl - 1)) / 2

/-- `density` (diagnostics.py 38-57), exact arithmetic instead of floats. In a network that is not
node-aligned `pedges` is never assigned. -/
def View.density (v : View α W) : Except Err ℚ :=
  if (v.slices.headD []).length = 0 then .ok 0
  else
    match v.edgesLen with
    | .error e => .error e
    | .ok n =>
      if v.fic = false then .error .unboundLocalError
      else if v.possibleEdges = 0 then .error .zeroDivisionError
      else .ok (n / v.possibleEdges)

/-! ### Shortest paths -/

/-- An entry of the queue: `(distance, source, dest)` (diagnostics.py 146, 157). -/
abbrev QEntry (α W : Type) := W × List α × List α

/-- The local variables of `dijkstra`. The heap is a bag of entries; how `heapq` stores it is not
modelled. -/
structure DState (α W : Type) where
  dist : Dict (List α) W
  queue : List (QEntry α W)
  forest : MNet α W
  deriving DecidableEq

/-- `neigh not in d or d[neigh]>=ndist` (diagnostics.py 155). -/
def improves [LE W] [DecidableLE W] (d : Dict (List α) W) (x : List α) (t : W) : Bool :=
  match Dict.get d x with
  | none => true
  | some s => decide (t ≤ s)

/-- the body of the loop over the neighbours (diagnostics.py 153-157). -/
def relax [LE W] [DecidableLE W] [Add W] (v : View α W) (dist : W) (dest : List α) (s : DState α W)
    (neigh : List α) : Except Err (DState α W) :=
  match v.nodeGet dest (neigh.map .val) with
  | .error e => .error e
  | .ok it =>
    match it.num with
    | .error e => .error e
    | .ok w =>
      let ndist := dist + w
      if improves s.dist neigh ndist then
        .ok { s with dist := Dict.set s.dist neigh ndist, queue := (ndist, dest, neigh) :: s.queue }
      else .ok s

/-- `forest[source][dest]=net[source][dest]` and the loop over the neighbours (diagnostics.py 152-157). -/
def settle [LE W] [DecidableLE W] [Add W] (v : View α W) (e : QEntry α W) (s : DState α W) :
    Except Err (DState α W) :=
  match v.nodeGet e.2.1 (e.2.2.map .val) with
  | .error x => .error x
  | .ok it =>
    match it.num with
    | .error x => .error x
    | .ok w =>
      match (s.forest.nodeSet e.2.1 e.2.2 w).toExcept with
      | .error x => .error x
      | .ok f =>
        match v.iterOut e.2.2 none with
        | .error x => .error x
        | .ok ns => forE (relax v e.1 e.2.2) ns { s with forest := f }

/-- the body of the `while` loop after `heappop` returned `e` (diagnostics.py 149-157). -/
def dijkstraStep [LE W] [DecidableLE W] [Add W] (v : View α W) (e : QEntry α W) (s : DState α W) :
    Except Err (DState α W) :=
  match Dict.get s.dist e.2.2 with
  | none => .error .keyError
  | some t =>
    if e.1 ≤ t then
      if t = e.1 then settle v e s else .error .assertionError
    else .ok s

/-- the `while` loop (diagnostics.py 148-157) run for at most the given number of iterations; `none`
means that the loop has not ended by then. `pop` is `heapq.heappop`: from a non-empty heap it gives an
entry and the remaining heap. -/
def dijkstraLoop [LE W] [DecidableLE W] [Add W] (pop : List (QEntry α W) → QEntry α W × List (QEntry α W))
    (v : View α W) : Nat → DState α W → Option (Except Err (DState α W))
  | 0, s => if s.queue = [] then some (.ok s) else none
  | n + 1, s =>
    if s.queue = [] then some (.ok s)
    else
      match dijkstraStep v (pop s.queue).1 { s with queue := (pop s.queue).2 } with
      | .error e => some (.error e)
      | .ok s => dijkstraLoop pop v n s

/-- the variables before the loop (diagnostics.py 138-146); `forest` has `noEdge=-1`. -/
def dijkstraInit [Zero W] [One W] [Neg W] (aspects : Nat) (sources : List (List α)) : DState α W where
  dist := sources.foldl (fun d s => Dict.set d s 0) []
  queue := sources.foldl (fun q s => (0, s, s) :: q) []
  forest := MNet.init aspects (-1) true false

/-- `dijkstra` (diagnostics.py 130-160) run for at most `fuel` iterations of its loop: the distances and
the forest. -/
def View.dijkstra [LE W] [DecidableLE W] [Add W] [Zero W] [One W] [Neg W]
    (pop : List (QEntry α W) → QEntry α W × List (QEntry α W)) (v : View α W) (sources : List (List α))
    (fuel : Nat) : Option (Except Err (Dict (List α) W × MNet α W)) :=
  match dijkstraLoop pop v fuel (dijkstraInit v.aspects sources) with
  | none => none
  | some (.error e) => some (.error e)
  | some (.ok s) => some (.ok (s.dist, s.forest))

end Pymnet
