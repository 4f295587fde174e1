import Verif.Model.Visuals

/-!
Model of `get_fruchterman_reingold_multilayer_layout` (/repo/pymnet/visuals/layouts.py 92-282) with `alignedNodes=False`: coordinates are given
to node-layers instead of nodes. Coordinates, the square root and random numbers are as in `Model/Visuals.lean`.
-/

namespace Pymnet

open Py

/-- What the layout needs of the network: the number of its nodes, its node-layers, the ends of its links, and the pairs that repel each other in
the order of the loops. -/
structure FrNlNet (κ : Type) where
  size : Nat
  nls : List κ
  edges : List (κ × κ)
  pairs : List (κ × κ)

section

variable {κ K : Type} [DecidableEq κ] [Field K] [LinearOrder K]

/-- one link (layouts.py 243-250). Unlike the case of aligned nodes, the distance is at least `0.01`, and loops are not left out. -/
def springNl (sqrt : K → K) (nodeDist : K) (nlc : Dict κ (K × K)) (delta : Dict κ (K × K)) (e : κ × κ) : Except Err (Dict κ (K × K)) :=
  match Dict.get nlc e.1, Dict.get nlc e.2 with
  | some a, some b =>
    addForce delta e.1 e.2 (-(max (sqrt ((a.1 - b.1) ^ 2 + (a.2 - b.2) ^ 2)) (1 / 100) / nodeDist)) (a.1 - b.1, a.2 - b.2)
  | _, _ => .error .keyError

/-- one pair of node-layers (layouts.py 256-263). -/
def repulseNl (sqrt : K → K) (nodeDist : K) (nlc : Dict κ (K × K)) (delta : Dict κ (K × K)) (e : κ × κ) : Except Err (Dict κ (K × K)) :=
  if e.1 = e.2 then .ok delta
  else
    match Dict.get nlc e.1, Dict.get nlc e.2 with
    | some a, some b =>
      let dist := max (sqrt ((a.1 - b.1) ^ 2 + (a.2 - b.2) ^ 2)) (1 / 100)
      addForce delta e.1 e.2 (nodeDist ^ 2 / dist ^ 2) (a.1 - b.1, a.2 - b.2)
    | _, _ => .error .keyError

/-- one iteration (layouts.py 241-272). -/
def frNlStep (sqrt : K → K) (net : FrNlNet κ) (nodeDist : K) (boxSize : K × K) (fixed : List κ) (temperature : K) (nlc : Dict κ (K × K)) :
    Except Err (Dict κ (K × K)) :=
  match forE (springNl sqrt nodeDist nlc) net.edges (nlc.map fun p => (p.1, ((0 : K), (0 : K)))) with
  | .error e => .error e
  | .ok delta =>
    match forE (repulseNl sqrt nodeDist nlc) net.pairs delta with
    | .error e => .error e
    | .ok delta =>
      match forE (moveNode sqrt fixed temperature delta) (Dict.keys delta) nlc with
      | .error e => .error e
      | .ok nlc => normalizeCoordinates nlc boxSize true

/-- the iterations (layouts.py 199, 274). -/
def frNlLoop (sqrt : K → K) (net : FrNlNet κ) (nodeDist : K) (boxSize : K × K) (fixed : List κ) (dT : K) :
    Nat → K → Dict κ (K × K) → Except Err (Dict κ (K × K))
  | 0, _, nlc => .ok nlc
  | n + 1, temperature, nlc =>
    match frNlStep sqrt net nodeDist boxSize fixed temperature nlc with
    | .error e => .error e
    | .ok nlc => frNlLoop sqrt net nodeDist boxSize fixed dT n (temperature - dT) nlc

/-- The layout (layouts.py 152-282) after the network has been prepared; `start` gives the first coordinates of a node-layer. -/
def frNlLayout (sqrt : K → K) (net : FrNlNet κ) (nodeDist : Option K) (boxSize : K × K) (start : κ → K × K) (fixed : List κ) (iterations : Nat) :
    Except Err (Dict κ (K × K)) :=
  match frDist sqrt net.size nodeDist with
  | .error e => .error e
  | .ok dist =>
    if iterations = 0 then .error .zeroDivisionError
    else
      let temperature := 1 / 10 * max boxSize.1 boxSize.2
      frNlLoop sqrt net dist boxSize fixed (temperature / (iterations : K)) iterations temperature
        (net.nls.foldl (fun nlc nl => Dict.set nlc nl (start nl)) [])

end

section

variable {α W : Type} [DecidableEq α] [DecidableEq W]

/-- `net._link_to_nodes(edge[:-1])` (layouts.py 244) -/
def edgeNls (e : List α × W) : Except Err (List (List α × List α)) :=
  match linkToNodes e.1 with
  | .error e => .error e
  | .ok p => .ok [p]

/-- What the layout uses of a general network (layouts.py 139-150, 253-256). `all` is the name "all": a fully interconnected network becomes the
only layer, of this name, of a new network, see `MNet.frNet`. -/
def MNet.frNlNet [Add W] (m : MNet α W) (all : α) : Except Err (FrNlNet (List α)) :=
  if m.aspects < 1 then .error .assertionError
  else if m.fic then
    match m.frNet with
    | .error e => .error e
    | .ok net => .ok ⟨net.nodes.length, net.nodes.map fun n => [n, all], net.edges.map fun e => ([e.1, all], [e.2, all]),
        net.nodes.flatMap fun a => net.nodes.map fun b => ([a, all], [b, all])⟩
  else
    match m.view.edges with
    | .error e => .error e
    | .ok es =>
      match View.collect edgeNls es with
      | .error e => .error e
      | .ok ends => .ok ⟨(m.slices.headD []).length, m.nodeLayers, ends,
          m.nodeLayers.flatMap fun nl => (m.iterNodes (some (layerOfNl nl))).map fun n => (nl, n :: nl.drop 1)⟩

variable {K : Type} [Field K] [LinearOrder K]

/-- the first coordinates of a node-layer (layouts.py 178-185): those given for the node-layer, or else for its node, or else random. -/
def frNlStart (boxSize : K × K) (nodelayerCoords : Dict (List α) (K × K)) (nodeCoords : Dict α (K × K)) (rand : List α → K × K)
    (nl : List α) : K × K :=
  match Dict.get nodelayerCoords nl with
  | some c => c
  | none =>
    match nl.head?.bind (Dict.get nodeCoords) with
    | some c => c
    | none => (boxSize.1 * (rand nl).1, boxSize.2 * (rand nl).2)

/-- `get_fruchterman_reingold_multilayer_layout(net,...,alignedNodes=False)` (layouts.py 92-282) of a general network. `nodelayerCoords` is
`none` if it is not given. -/
def MNet.frNl [Add W] (m : MNet α W) (all : α) (sqrt : K → K) (nodeDist : Option K) (boxSize : K × K)
    (nodelayerCoords : Option (Dict (List α) (K × K))) (nodeCoords : Dict α (K × K)) (rand : List α → K × K) (fixed : List (List α))
    (iterations : Nat) : Except Err (Dict (List α) (K × K)) :=
  if 1 ≤ m.aspects ∧ m.fic = true ∧ nodelayerCoords.isSome then .error .assertionError
  else
    match m.frNlNet all with
    | .error e => .error e
    | .ok net => frNlLayout sqrt net nodeDist boxSize (frNlStart boxSize (nodelayerCoords.getD []) nodeCoords rand) fixed iterations

end

end Pymnet
