import Verif.Model.Transforms
import Mathlib.Algebra.Order.Field.Basic

/-!
Model of the parts of `/repo/pymnet/visuals` that do not draw: layouts.py (`get_layout` 7-50, `normalize_coordinates` 54-89,
`get_fruchterman_reingold_multilayer_layout` 92-282), drawnet.py (`NetFigure` 4-59) and the part of drawcore.py that builds the figure
(`draw` 159-228), and the coordinates used by drawbackends/threejs.py (36-74).

Coordinates are elements of an ordered field instead of floating-point numbers; `math.sqrt` is a parameter. Random numbers are parameters.
-/

namespace Pymnet

open Py

/-! ### normalize_coordinates -/

section Norm

variable {κ K : Type} [DecidableEq κ] [Field K] [LinearOrder K]

/-- `if minx==None or x<minx: minx=x` (layouts.py 69-72). -/
def updMin (m : Option K) (x : K) : Option K :=
  match m with
  | none => some x
  | some y => if x < y then some x else some y

/-- `if maxx==None or x>maxx: maxx=x` (layouts.py 73-76). -/
def updMax (m : Option K) (x : K) : Option K :=
  match m with
  | none => some x
  | some y => if y < x then some x else some y

/-- least and greatest coordinate (layouts.py 65-76). -/
def coordBounds (l : List K) : Option K × Option K := (l.foldl updMin none, l.foldl updMax none)

/-- one entry of `newcoords` (layouts.py 85-88): read from `coords`, which is `newcoords` itself if `inplace`. -/
def normStep (inplace : Bool) (coords : Dict κ (K × K)) (minx miny difx dify : K) (new : Dict κ (K × K)) (k : κ) :
    Except Err (Dict κ (K × K)) :=
  match Dict.get (if inplace then new else coords) k with
  | none => .error .keyError
  | some c =>
    if difx = 0 then .error .zeroDivisionError
    else if dify = 0 then .error .zeroDivisionError
    else .ok (Dict.set new k ((c.1 - minx) / difx, (c.2 - miny) / dify))

/-- `normalize_coordinates(coords,boxSize,inplace)` (layouts.py 54-89): the returned dictionary, which is `coords`, changed, if `inplace`. The
argument `boxSize` is not used by the code. If an exception is raised, nothing has been changed. -/
def normalizeCoordinates (coords : Dict κ (K × K)) (_boxSize : K × K) (inplace : Bool) : Except Err (Dict κ (K × K)) :=
  match coordBounds (coords.map fun p => p.2.1), coordBounds (coords.map fun p => p.2.2) with
  | (some minx, some maxx), (some miny, some maxy) =>
    forE (normStep inplace coords minx miny (maxx - minx) (maxy - miny)) (Dict.keys coords) (if inplace then coords else [])
  | _, _ => .error .typeError

/-! ### The Fruchterman-Reingold layout -/

/-- What the layout needs of the network (layouts.py 143-150): its nodes, the ends of its links, and `_nodeToLayers`. -/
structure FrNet (α L : Type) where
  nodes : List α
  edges : List (α × α)
  layers : Dict α (List L)

variable {α L : Type} [DecidableEq α] [DecidableEq L]

/-- `delta_nc[node]=(delta_nc[node][0]+dx,delta_nc[node][1]+dy)` -/
def addDelta (delta : Dict α (K × K)) (node : α) (dx dy : K) : Except Err (Dict α (K × K)) :=
  match Dict.get delta node with
  | none => .error .keyError
  | some d => .ok (Dict.set delta node (d.1 + dx, d.2 + dy))

/-- the force `c` times the difference of the coordinates is added to the first node and subtracted from the second. -/
def addForce (delta : Dict α (K × K)) (n1 n2 : α) (c : K) (diff : K × K) : Except Err (Dict α (K × K)) :=
  match addDelta delta n1 (c * diff.1) (c * diff.2) with
  | .error e => .error e
  | .ok delta => addDelta delta n2 (-(c * diff.1)) (-(c * diff.2))

/-- one link (layouts.py 204-212). -/
def spring (sqrt : K → K) (nodeDist : K) (nc : Dict α (K × K)) (delta : Dict α (K × K)) (e : α × α) : Except Err (Dict α (K × K)) :=
  if e.1 = e.2 then .ok delta
  else
    match Dict.get nc e.1, Dict.get nc e.2 with
    | some a, some b =>
      addForce delta e.1 e.2 (-(sqrt ((a.1 - b.1) ^ 2 + (a.2 - b.2) ^ 2) / nodeDist)) (a.1 - b.1, a.2 - b.2)
    | _, _ => .error .keyError

/-- one pair of nodes (layouts.py 217-224). The least distance is `0.01`. -/
def repulse (sqrt : K → K) (nodeDist : K) (layers : Dict α (List L)) (nc : Dict α (K × K)) (delta : Dict α (K × K)) (e : α × α) :
    Except Err (Dict α (K × K)) :=
  if e.1 = e.2 then .ok delta
  else
    match Dict.get layers e.1, Dict.get layers e.2 with
    | some l1, some l2 =>
      match Dict.get nc e.1, Dict.get nc e.2 with
      | some a, some b =>
        let dist := max (sqrt ((a.1 - b.1) ^ 2 + (a.2 - b.2) ^ 2)) (1 / 100)
        addForce delta e.1 e.2 (((l1.filter fun x => x ∈ l2).length : K) * nodeDist ^ 2 / dist ^ 2) (a.1 - b.1, a.2 - b.2)
      | _, _ => .error .keyError
    | _, _ => .error .keyError

/-- `nc[node]=...` for a node that is not fixed (layouts.py 228-232). -/
def moveNode (sqrt : K → K) (fixed : List α) (temperature : K) (delta : Dict α (K × K)) (nc : Dict α (K × K)) (node : α) :
    Except Err (Dict α (K × K)) :=
  match Dict.get delta node with
  | none => .error .keyError
  | some d =>
    if node ∈ fixed then .ok nc
    else
      match Dict.get nc node with
      | none => .error .keyError
      | some c =>
        .ok (Dict.set nc node (c.1 + temperature * sqrt (d.1 ^ 2 + d.2 ^ 2) * d.1, c.2 + temperature * sqrt (d.1 ^ 2 + d.2 ^ 2) * d.2))

/-- one iteration (layouts.py 200-233). -/
def frStep (sqrt : K → K) (net : FrNet α L) (nodeDist : K) (boxSize : K × K) (fixed : List α) (temperature : K) (nc : Dict α (K × K)) :
    Except Err (Dict α (K × K)) :=
  match forE (spring sqrt nodeDist nc) net.edges (nc.map fun p => (p.1, ((0 : K), (0 : K)))) with
  | .error e => .error e
  | .ok delta =>
    match forE (repulse sqrt nodeDist net.layers nc) (net.nodes.flatMap fun a => net.nodes.map fun b => (a, b)) delta with
    | .error e => .error e
    | .ok delta =>
      match forE (moveNode sqrt fixed temperature delta) (Dict.keys delta) nc with
      | .error e => .error e
      | .ok nc => normalizeCoordinates nc boxSize true

/-- the iterations (layouts.py 199, 274). -/
def frLoop (sqrt : K → K) (net : FrNet α L) (nodeDist : K) (boxSize : K × K) (fixed : List α) (dT : K) :
    Nat → K → Dict α (K × K) → Except Err (Dict α (K × K))
  | 0, _, nc => .ok nc
  | n + 1, temperature, nc =>
    match frStep sqrt net nodeDist boxSize fixed temperature nc with
    | .error e => .error e
    | .ok nc => frLoop sqrt net nodeDist boxSize fixed dT n (temperature - dT) nc

/-- the first coordinates of a node (layouts.py 171-175): those given, or random numbers in the box. -/
def frStart (boxSize : K × K) (nodeCoords : Dict α (K × K)) (rand : α → K × K) (node : α) : K × K :=
  match Dict.get nodeCoords node with
  | some c => c
  | none => (boxSize.1 * (rand node).1, boxSize.2 * (rand node).2)

/-- `nodeDist` (layouts.py 152-157): `none` is "auto". -/
def frDist (sqrt : K → K) (n : Nat) : Option K → Except Err K
  | none => if sqrt (n : K) = 0 then .error .zeroDivisionError else .ok (1 / sqrt (n : K))
  | some x => if 0 < x then .ok x else .error .assertionError

/-- The layout (layouts.py 152-279) with `alignedNodes=True`, after the network has been prepared; `iterations` is not negative. -/
def frLayout (sqrt : K → K) (net : FrNet α L) (nodeDist : Option K) (boxSize : K × K) (nodeCoords : Dict α (K × K)) (rand : α → K × K)
    (fixed : List α) (iterations : Nat) : Except Err (Dict α (K × K)) :=
  match frDist sqrt net.nodes.length nodeDist with
  | .error e => .error e
  | .ok dist =>
    if iterations = 0 then .error .zeroDivisionError
    else
      let temperature := 1 / 10 * max boxSize.1 boxSize.2
      frLoop sqrt net dist boxSize fixed (temperature / (iterations : K)) iterations temperature
        (net.nodes.foldl (fun nc node => Dict.set nc node (frStart boxSize nodeCoords rand node)) [])

end Norm

section

variable {α W : Type} [DecidableEq α] [DecidableEq W]

/-- the two nodes of an edge: `edge[0]`, `edge[1]` (layouts.py 205-206) -/
def edgeEnds (e : List α × W) : Except Err (List (α × α)) :=
  match e.1 with
  | i :: j :: _ => .ok [(i, j)]
  | _ => .error .indexError

/-- What the layout uses of a general network (layouts.py 139-150). A fully interconnected network is aggregated, and becomes the only layer
of a new network. This network is not built here: it has the nodes and links of the aggregated network, and all nodes are on the layer
"all", which is written `.tup []`. (If the network is directed, two opposite links become one there, here they stay two.) -/
def MNet.frNet [Add W] (m : MNet α W) : Except Err (FrNet α (LKey α)) :=
  if m.aspects < 1 then .error .assertionError
  else if m.fic then
    match m.view.aggregate [1] false with
    | .error e => .error e
    | .ok agg =>
      if agg.aspects ≠ 0 then .error .assertionError
      else
        match agg.view.edges with
        | .error e => .error e
        | .ok es =>
          match View.collect edgeEnds es with
          | .error e => .error e
          | .ok ends => .ok ⟨agg.slices.headD [], ends, (agg.slices.headD []).map fun n => (n, [.tup []])⟩
  else
    match m.view.edges with
    | .error e => .error e
    | .ok es =>
      match View.collect edgeEnds es with
      | .error e => .error e
      | .ok ends => .ok ⟨m.slices.headD [], ends, m.nodeToLayers⟩

/-- `get_fruchterman_reingold_multilayer_layout(net,...)` (layouts.py 92-279) with `alignedNodes=True`, of a general network. -/
def MNet.fr {K : Type} [Field K] [LinearOrder K] [Add W] (m : MNet α W) (sqrt : K → K) (nodeDist : Option K) (boxSize : K × K)
    (nodeCoords : Dict α (K × K)) (rand : α → K × K) (fixed : List α) (iterations : Nat) : Except Err (Dict α (K × K)) :=
  match m.frNet with
  | .error e => .error e
  | .ok net => frLayout sqrt net nodeDist boxSize nodeCoords rand fixed iterations

/-! ### get_layout -/

variable {K : Type} [Field K] [LinearOrder K]

/-- The layouts by name: one of networkx ("circular", "shell", "spring", "spectral"), "random", "fr", or another name. -/
inductive LayoutName
  | nx | random | fr | other
  deriving DecidableEq, Repr

/-- `get_layout(layout,net,alignedNodes)` (layouts.py 7-50) of a general network, with `alignedNodes` true or false: the two dictionaries of
coordinates. The keys of the second should be node-layers, but for "fr" they are nodes: `.inl`. `nx` is networkx's layout of the aggregated
network, `rand` and `randNl` the random numbers, `sqrt` and `randFr` belong to the layout "fr". -/
def MNet.getLayout [Add W] (m : MNet α W) (layout : LayoutName) (aligned : Bool) (nx : MNet α W → Dict α (K × K)) (rand : α → K × K)
    (randNl : List α → K × K) (sqrt : K → K) (randFr : α → K × K) : Except Err (Dict α (K × K) × Dict (α ⊕ List α) (K × K)) :=
  if aligned then
    match layout with
    | .nx =>
      match m.view.aggregate [1] false with
      | .error e => .error e
      | .ok agg => .ok (nx agg, [])
    | .random => .ok ((m.slices.headD []).foldl (fun d n => Dict.set d n (rand n)) [], [])
    | .fr =>
      match m.fr sqrt none (1, 1) [] randFr [] 100 with
      | .error e => .error e
      | .ok nc => .ok (nc, [])
    | .other => .error .exception
  else
    match layout with
    | .random => .ok ([], m.nodeLayers.foldl (fun d nl => Dict.set d (.inr nl) (randNl nl)) [])
    | .fr =>
      match m.fr sqrt none (1, 1) [] randFr [] 100 with
      | .error e => .error e
      | .ok nc => .ok ([], nc.map fun p => (.inl p.1, p.2))
    | _ => .error .exception

/-! ### The figure -/

/-- A node of the figure (drawnet.py 61-69): the node-layer it stands for, its coordinates and its size. -/
structure FigNode (α K : Type) where
  nl : List α
  x : K
  y : K
  size : K
  deriving DecidableEq

/-- A `NetFigure` (drawnet.py 4-18): layers from the lowest to the highest, nodes, and edges between node-layers. Colors, labels, styles and
so on are left out. -/
structure Figure (α K : Type) where
  layers : List (LKey α)
  nodes : List (FigNode α K)
  edges : List (List α × List α)

/-- the coordinates of a node-layer (drawcore.py 215-220) -/
def nodeXY (ncoords : Dict α (K × K)) (nlcoords : Dict (α ⊕ List α) (K × K)) (rand : List α → K × K) (n : α) (nl : List α) : K × K :=
  match Dict.get nlcoords (.inr nl) with
  | some c => c
  | none =>
    match Dict.get ncoords n with
    | some c => c
    | none => rand nl

/-- one node-layer (drawcore.py 214-222): `layers[nl[1]]` must exist. -/
def drawNode (layers : List (LKey α)) (ncoords : Dict α (K × K)) (nlcoords : Dict (α ⊕ List α) (K × K)) (rand : List α → K × K)
    (size : List α → K) (nl : List α) : Except Err (List (FigNode α K)) :=
  match nl with
  | n :: l :: _ =>
    if LKey.el l ∈ layers then
      .ok [⟨nl, (nodeXY ncoords nlcoords rand n nl).1, (nodeXY ncoords nlcoords rand n nl).2, size nl⟩]
    else .error .keyError
  | _ => .error .indexError

/-- the edges of one node-layer (drawcore.py 224-226): `nodes[nl1]` and `nodes[nl2]` must exist. -/
def drawEdges (v : View α W) (nls : List (List α)) (nl1 : List α) : Except Err (List (List α × List α)) :=
  match v.iterTotal nl1 none with
  | .error e => .error e
  | .ok l => View.collect (fun nl2 => if nl1 ∈ nls ∧ nl2 ∈ nls then .ok [(nl1, nl2)] else .error .keyError) l

/-- `draw` up to the call of `nf.draw` (drawcore.py 159-226), of a network with the layers `ls`. `order` is the order of the layers
(`layerOrder`), `size` the sizes of the nodes; `ncoords` and `nlcoords` are the coordinates of the layout after those given by the caller
have been put in. Layers are inserted at the front of the list of the figure (drawnet.py 54-55). -/
def drawFigure {O : Type} [LinearOrder O] (v : View α W) (ls : List (LKey α)) (order : LKey α → O) (ncoords : Dict α (K × K))
    (nlcoords : Dict (α ⊕ List α) (K × K)) (rand : List α → K × K) (size : List α → K) : Except Err (Figure α K) :=
  if v.aspects ≠ 1 then .error .assertionError
  else
    let layers := (ls.insertionSort fun a b => order a ≤ order b).foldl (fun l x => x :: l) []
    match v.nodeLayers with
    | .error e => .error e
    | .ok nls =>
      match View.collect (drawNode layers ncoords nlcoords rand size) nls with
      | .error e => .error e
      | .ok nodes =>
        match View.collect (drawEdges v nls) nls with
        | .error e => .error e
        | .ok edges => .ok ⟨layers, nodes, edges⟩

/-- The figure that `draw` makes of a general network (drawcore.py 159-226), see `drawFigure`. -/
def MNet.figure {O : Type} [LinearOrder O] (m : MNet α W) (order : LKey α → O) (ncoords : Dict α (K × K))
    (nlcoords : Dict (α ⊕ List α) (K × K)) (rand : List α → K × K) (size : List α → K) : Except Err (Figure α K) :=
  drawFigure m.view m.iterLayers order ncoords nlcoords rand size

/-- `normalize_coords` (drawnet.py 20-33): infinity as the first maximum and minimum is `none`. -/
def Figure.normalize (f : Figure α K) (padding : K) : Except Err (Figure α K) :=
  match f.nodes.foldl (fun m (n : FigNode α K) => updMin m (n.x - n.size / 2)) none, f.nodes.foldl (fun m (n : FigNode α K) => updMax m (n.x + n.size / 2)) none,
      f.nodes.foldl (fun m (n : FigNode α K) => updMin m (n.y - n.size / 2)) none, f.nodes.foldl (fun m (n : FigNode α K) => updMax m (n.y + n.size / 2)) none with
  | some minx, some maxx, some miny, some maxy =>
    if maxx - minx + 2 * padding = 0 then .error .zeroDivisionError
    else if maxy - miny + 2 * padding = 0 then .error .zeroDivisionError
    else .ok { f with nodes := f.nodes.map fun n =>
      { n with x := (n.x - minx + padding) / (maxx - minx + 2 * padding), y := (n.y - miny + padding) / (maxy - miny + 2 * padding) } }
  | _, _, _, _ => .ok f

/-- `layer.z=i*self.layergap` (drawnet.py 37-38) for the layer of a node-layer. -/
def Figure.z (f : Figure α K) (layergap : K) (L : LKey α) : K := ((f.layers.idxOf L : Nat) : K) * layergap

/-- the layer of a node-layer -/
def layerOfNl (nl : List α) : LKey α := LKey.ofList (nl.drop 1)

/-- the position of a node as drawn by the backend three.js (threejs.py 40-42) for the size `S` of the figure -/
def threejsNode (f : Figure α K) (layergap S : K) (n : FigNode α K) : K × K × K :=
  (S * n.x, 10 * S * n.y, 10 * S * f.z layergap (layerOfNl n.nl))

/-- the position of an end of an edge as drawn by the backend three.js (threejs.py 54-60) -/
def threejsEnd (f : Figure α K) (layergap S : K) (n : FigNode α K) : K × K × K :=
  (S * n.x, S * n.y, S * f.z layergap (layerOfNl n.nl))

end

end Pymnet
