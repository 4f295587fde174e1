import Verif.Model.Models
import Verif.Model.Assign
import Mathlib.Analysis.SpecialFunctions.Trigonometric.Basic

/-!
Models of the random generators `er_multilayer_partially_interconnected` (`/repo/pymnet/sampling/creators.py` 6-39) and `geo` and
`ws` (`/repo/pymnet/models.py` 848-917). Names that are integers are `ix i`. What the random number generator and the networkx
functions return are arguments.
-/

namespace Pymnet

open Py

variable {α W : Type} [DecidableEq α] [DecidableEq W] [Zero W] [One W]

/-- the first loop: `network.add_layer(layer)` and `network.add_node(node=node,layer=layer)` (creators.py 28-31). -/
def erPartNodes (ix : Nat → α) (nodes : List (List α)) : Except Err (MNet α W) :=
  forE (fun (m : MNet α W) (x : List α × Nat) =>
    match (m.addLayer (ix x.2) 1).toExcept with
    | .error e => .error e
    | .ok m => forE (fun (m : MNet α W) n => (m.addNode n (some (.el (ix x.2)))).toExcept) x.1 m)
    nodes.zipIdx (MNet.init 1 0 false false)

/-- `er_multilayer_partially_interconnected` (creators.py 6-39). `r i j` is the value of `random.random()` in the test of the
node-layers numbered `i > j`. The node-layers of a network are distinct, so the dictionary `numberings` is the list of the pairs. -/
noncomputable def erPart (ix : Nat → α) (nodes : List (List α)) (p : ℝ) (r : Nat → Nat → ℝ) : Except Err (MNet α W) :=
  match (erPartNodes ix nodes : Except Err (MNet α W)) with
  | .error e => .error e
  | .ok m =>
    let numberings := m.nodeLayers.zipIdx
    forE (fun m (a : List α × Nat) => forE (fun m (b : List α × Nat) =>
      if a.2 > b.2 ∧ r a.2 b.2 < p then (m.nodeSet a.1 b.1 1).toExcept else .ok m) numberings m) numberings m

/-- What `networkx.soft_random_geometric_graph` returns: nodes, edges and the positions of the nodes. -/
structure GeoGraph (α P : Type) where
  nodes : List α
  edges : List (α × α)
  pos : P

/-- `r = math.sqrt(2.2 * float(m) / ((n - 1.0) * n) / math.pi)` (models.py 907), for real numbers. -/
noncomputable def geoRadius (n m : Nat) : ℝ := √(2.2 * (m : ℝ) / (((n : ℝ) - 1) * n) / Real.pi)

/-- the loop body of `geo` (models.py 905-915) for layer `x.2` with `x.1` edges; `st` is the network and `pos`. -/
noncomputable def geoLayer {P : Type} (ix : Nat → α) (n : Nat) (gen : Nat → ℝ → Option P → GeoGraph α P)
    (st : MPlex α W × Option P) (x : Nat × Nat) : Except Err (MPlex α W × Option P) :=
  match (st.1.addLayer (ix x.2) 1).toExcept with
  | .error e => .error e
  | .ok q =>
    if n = 0 ∨ n = 1 then .error .zeroDivisionError
    else
      let g := gen x.2 (geoRadius n x.1) st.2
      match forE (fun (q : MPlex α W) v => (q.addNode v none).toExcept) g.nodes q with
      | .error e => .error e
      | .ok q =>
        match forE (fun (q : MPlex α W) e => (q.setItem [e.1, e.2, ix x.2] 1).toExcept) g.edges q with
        | .error e => .error e
        | .ok q => .ok (q, some g.pos)

/-- `geo` (models.py 877-917) with one coupling. `gen l r pos` is `networkx.soft_random_geometric_graph(n, r, pos=pos)` in layer `l`. -/
noncomputable def geo {P : Type} (ix : Nat → α) (n : Nat) (edges : List Nat) (coupling : Coupling α W)
    (gen : Nat → ℝ → Option P → GeoGraph α P) : Except Err (MPlex α W) :=
  (forE (geoLayer ix n gen) edges.zipIdx (MPlex.init [coupling] false 0 true, none)).map Prod.fst

/-- `int(math.ceil(2*m / float(n)))` (models.py 872), for `n ≠ 0`. -/
def wsNeighbors (n m : Nat) : Nat := (2 * m + (n - 1)) / n

/-- the loop body of `ws` (models.py 870-872). -/
def wsLayer (ix : Nat → α) (n : Nat) (gen : Nat → Nat → MNet α W) (q : MPlex α W) (x : Nat × Nat) : Except Err (MPlex α W) :=
  match (q.addLayer (ix x.2) 1).toExcept with
  | .error e => .error e
  | .ok q => if n = 0 then .error .zeroDivisionError else (q.assignA (.el (ix x.2)) (gen x.2 (wsNeighbors n x.1))).toExcept

/-- `ws` (models.py 848-874) with one coupling. `gen l k` is `watts_strogatz_graph(n, k, p=p)` of the wrapped networkx in layer `l`, a
general network without aspects. -/
def ws (ix : Nat → α) (n : Nat) (edges : List Nat) (coupling : Coupling α W) (gen : Nat → Nat → MNet α W) :
    Except Err (MPlex α W) :=
  forE (wsLayer ix n gen) edges.zipIdx (MPlex.init [coupling] false 0 true)

end Pymnet
