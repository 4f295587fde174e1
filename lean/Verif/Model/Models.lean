import Verif.Model.Transforms
import Verif.Model.Plex
import Mathlib.Analysis.SpecialFunctions.Log.Basic
import Mathlib.Analysis.Real.Sqrt

/-!
Model of the network generators of `/repo/pymnet/models.py` (Erdos-Renyi, complete and preferential-attachment models).

Random outcomes are arguments: each function takes the outcomes of its calls of the module `random`, and is defined for
all of them. A `while` loop whose end depends on random outcomes takes the list of the outcomes it is going to get;
`Stop.more` says that the call has not returned after these (or that the list holds something `random` cannot return).
Numbers are exact: `math.log`, `math.sqrt`, `/` are those of the real numbers. The integers that the code uses as names of
nodes and layers are given by an injective embedding `ix` into the type of names.
-/

namespace Pymnet.Models

open Py

/-- How a run of a generator on given random outcomes ends if it does not return a network. -/
inductive Stop
  | raised (e : Err)
  | more
  deriving DecidableEq, Repr

/-- an exception of a call leaves the generator -/
def lift {β : Type} : Except Err β → Except Stop β
  | .ok b => .ok b
  | .error e => .error (.raised e)

/-- The calls the single-layer generators make on the network they fill: `net.add_node(n)`, `net[i,j]=w`, `net[i,j]`. The
network is a general network without aspects, or the intra-layer network `net.A[L]` of a multiplex network. -/
structure Target (σ α W : Type) where
  addNode : σ → α → Except Err σ
  set : σ → α → α → W → Except Err σ
  get : σ → α → α → Except Err W

variable {α W : Type} [DecidableEq α] [DecidableEq W]

/-- a `MultilayerNetwork` with `aspects=0` -/
def netTarget : Target (MNet α W) α W where
  addNode m n := (m.addNode n none).toExcept
  set m i j w := (m.setItem [i, j] w).toExcept
  get m i j :=
    match m.view.readItem [i, j] with
    | .error e => .error e
    | .ok it => it.num

/-- `net.A[L]` of a multiplex network with one aspect (net.py 824-881) -/
def layerTarget [Zero W] (L : α) : Target (MPlex α W) α W where
  addNode p n := (p.childAddNode (.el L) n).toExcept
  set p i j w := (p.childSetItem (.el L) i j w).toExcept
  get p i j :=
    match p.child? (.el L) with
    | none => .error .keyError
    | some c =>
      match c.view.readItem [i, j] with
      | .error e => .error e
      | .ok it => it.num

/-- `l[i]` for a list or a range `l` and an integer `i`: negative indices count from the end. -/
def pyGet {β : Type} (l : List β) (i : Int) : Except Err β :=
  if 0 ≤ i then
    match l[i.toNat]? with
    | some b => .ok b
    | none => .error .indexError
  else
    match (if (l.length : Int) + i < 0 then none else l[((l.length : Int) + i).toNat]?) with
    | some b => .ok b
    | none => .error .indexError

/-! ### single_layer_er -/

/-- `v=int(1+math.floor(-0.5+math.sqrt(0.25+2*edge_index)))` (models.py 199) -/
noncomputable def edgeRow (e : Nat) : Int := 1 + ⌊(-(1 / 2) + √(1 / 4 + 2 * (e : ℝ)) : ℝ)⌋

/-- `w=edge_index-int((v*(v-1))/2)` (models.py 200) -/
noncomputable def edgeCol (e : Nat) : Int := e - (edgeRow e * (edgeRow e - 1)) / 2

section
variable {σ : Type} [Zero W] [One W]

/-- `net[nodes[v],nodes[w]]=1` (models.py 196, 201) -/
def linkAt (T : Target σ α W) (nodes : List α) (v w : Int) (s : σ) : Except Err σ :=
  match pyGet nodes v with
  | .error e => .error e
  | .ok a =>
    match pyGet nodes w with
    | .error e => .error e
    | .ok b => T.set s a b 1

/-- the branch with a number of edges (models.py 197-201); `sample` is what `random.sample(xrange(N),edges)` returns, which
raises `ValueError` if `edges` exceeds `N`. -/
noncomputable def erEdges (T : Target σ α W) (nodes : List α) (edges : Nat) (sample : List Nat) (s : σ) :
    Except Stop σ :=
  let n := nodes.length
  if edges > n * (n - 1) / 2 then .error (.raised .valueError)
  else if ¬ (sample.Nodup ∧ sample.length = edges ∧ ∀ e ∈ sample, e < n * (n - 1) / 2) then .error .more
  else lift (forE (fun s e => linkAt T nodes (edgeRow e) (edgeCol e) s) sample s)

/-- the branch `p==1.0` (models.py 182-186) -/
def erFull (T : Target σ α W) (nodes : List α) (s : σ) : Except Err σ :=
  forE (fun s a => forE (fun s b => if a ≠ b then T.set s a b 1 else .ok s) nodes s) nodes s

/-- `while ((w >= v) and (v < n)): w = w-v; v = v+1` (models.py 192-194) -/
def erAdvance (n v w : Int) : Int × Int :=
  if _h : v ≤ w ∧ v < n then erAdvance n (v + 1) (w - v) else (v, w)
termination_by (n - v).toNat
decreasing_by omega

/-- `int(math.floor(math.log(1-r)/math.log(1-p)))` (models.py 191) -/
noncomputable def erSkip (p r : ℝ) : Int := ⌊Real.log (1 - r) / Real.log (1 - p)⌋

/-- the loop `while (v < n)` (models.py 188-196); the list holds the values of `random.random()`, which are in [0,1).
`math.log` raises `ValueError` for numbers that are not positive. -/
noncomputable def erLoop (T : Target σ α W) (nodes : List α) (p : ℝ) : List ℝ → Int → Int → σ → Except Stop σ
  | rs, v, w, s =>
    if v < nodes.length then
      match rs with
      | [] => .error .more
      | r :: rs =>
        if ¬ (0 ≤ r ∧ r < 1) then .error .more
        else if 1 - p ≤ 0 then .error (.raised .valueError)
        else if p = 0 then .error (.raised .zeroDivisionError)
        else
          let vw := erAdvance nodes.length v (w + 1 + erSkip p r)
          if vw.1 < nodes.length then
            match linkAt T nodes vw.1 vw.2 s with
            | .error e => .error (.raised e)
            | .ok s => erLoop T nodes p rs vw.1 vw.2 s
          else erLoop T nodes p rs vw.1 vw.2 s
    else .ok s

/-- The random outcomes of one call of `single_layer_er`: the sampled edge indices, or the random numbers. -/
structure ErRandom where
  sample : List Nat
  rs : List ℝ

/-- `single_layer_er` (models.py 155-201) -/
noncomputable def singleLayerEr (T : Target σ α W) (nodes : List α) (p : Option ℝ) (edges : Option Nat)
    (rnd : ErRandom) (s : σ) : Except Stop σ :=
  match p, edges with
  | none, none => .error (.raised .exception)
  | some _, some _ => .error (.raised .exception)
  | some p, none =>
    match forE T.addNode nodes s with
    | .error e => .error (.raised e)
    | .ok s => if p = 1 then lift (erFull T nodes s) else erLoop T nodes p rnd.rs 1 (-1) s
  | none, some edges =>
    match forE T.addNode nodes s with
    | .error e => .error (.raised e)
    | .ok s => erEdges T nodes edges rnd.sample s

/-! ### er -/

/-- `for x in l: s = f(s,x)` -/
def forS {τ β : Type} (f : τ → β → Except Stop τ) : List β → τ → Except Stop τ
  | [], s => .ok s
  | b :: t, s =>
    match f s b with
    | .error e => .error e
    | .ok s => forS f t s

/-- A parameter that is a number or a list of numbers. -/
inductive Arg (β : Type) where
  | one (b : β)
  | many (l : List β)

/-- The parameter `n` of `er`: a number of nodes or lists of nodes. -/
inductive NodesArg (α : Type) where
  | num (n : Nat)
  | lists (l : List (List α))

/-- `range(n)` as names -/
def rangeNames (ix : Nat → α) (n : Nat) : List α := (List.range n).map ix

/-- A network of either class, as returned by the generators. -/
inductive Either (α W : Type) where
  | mono (m : MNet α W)
  | plex (p : MPlex α W)

/-- the parameters of a layer: a probability or a number of edges -/
abbrev LayerPar := Option ℝ × Option Nat

/-- the loops over the layers (models.py 355-357, 362-364). `layers`: number, parameters and nodes of the layers. -/
noncomputable def erLayers (ix : Nat → α) (rnd : Nat → ErRandom) (layers : List (Nat × LayerPar × List α))
    (net : MPlex α W) : Except Stop (MPlex α W) :=
  forS (fun net l =>
    match (net.addLayer (ix l.1) 1).toExcept with
    | .error e => .error (.raised e)
    | .ok net => singleLayerEr (layerTarget (ix l.1)) l.2.2 l.2.1.1 l.2.1.2 (rnd l.1) net) layers net

/-- `zip(layers,p,nodes)` with `layers=xrange(...)` -/
def zipLayers (pars : List LayerPar) (nodes : List (List α)) : List (Nat × LayerPar × List α) :=
  (List.range (min pars.length nodes.length)).zip (pars.zip nodes)

/-- the one of `p`, `edges` that is given, as parameters of layers -/
def erPars : Option (Arg ℝ) → Option (Arg Nat) → Arg LayerPar
  | some (.one p), _ => .one (some p, none)
  | some (.many ps), _ => .many (ps.map fun p => (some p, none))
  | none, some (.one e) => .one (none, some e)
  | none, some (.many es) => .many (es.map fun e => (none, some e))
  | none, none => .many []

/-- `er` (models.py 293-366) -/
noncomputable def er (ix : Nat → α) (n : NodesArg α) (p : Option (Arg ℝ)) (edges : Option (Arg Nat))
    (rnd : Nat → ErRandom) : Except Stop (Either α W) :=
  if (p.isNone ∧ edges.isNone) ∨ (p.isSome ∧ edges.isSome) then .error (.raised .exception)
  else
    match n, erPars p edges with
    | .num n, .one par =>
      match singleLayerEr netTarget (rangeNames ix n) par.1 par.2 (rnd 0) (MNet.init 0 0 false true) with
      | .error e => .error e
      | .ok m => .ok (.mono m)
    | .num n, .many pars =>
      match erLayers ix rnd (zipLayers pars (pars.map fun _ => rangeNames ix n))
          (MPlex.init [.categorical 1] false 0 true) with
      | .error e => .error e
      | .ok p => .ok (.plex p)
    | .lists ls, .one par =>
      match erLayers ix rnd (zipLayers (ls.map fun _ => par) ls) (MPlex.init [.categorical 1] false 0 false) with
      | .error e => .error e
      | .ok p => .ok (.plex p)
    | .lists ls, .many pars =>
      if ls.length ≠ pars.length then .error (.raised .assertionError)
      else
        match erLayers ix rnd (zipLayers pars ls) (MPlex.init [.categorical 1] false 0 false) with
        | .error e => .error e
        | .ok p => .ok (.plex p)

/-- `er_partially_interconnected` (models.py 368-393) -/
noncomputable def erPartiallyInterconnected (ix : Nat → α) (nodes : List (List α)) (ps : List ℝ)
    (coupling : Coupling α W) (rnd : Nat → ErRandom) : Except Stop (MPlex α W) :=
  if nodes.length ≠ ps.length then .error (.raised .assertionError)
  else erLayers ix rnd (zipLayers (ps.map fun p => (some p, none)) nodes) (MPlex.init [coupling] false 0 false)

/-! ### full, full_multilayer, er_multilayer -/

/-- the pairs of nodes visited by two nested loops over `range(nodes)` with `node1!=node2` (models.py 418-422) -/
def fullMono (ix : Nat → α) (nodes : Nat) : Except Err (MNet α W) :=
  forE (fun m a => forE (fun m b => if a ≠ b then (m.setItem [ix a, ix b] 1).toExcept else .ok m) (List.range nodes) m)
    (List.range nodes) (MNet.init 0 0 false true)

/-- `full` with a list of layers; a number of layers means `range(layers)` (models.py 423-436) -/
def fullPlex (ix : Nat → α) (nodes : Nat) (layers : List α) (coupling : Coupling α W) : Except Err (MPlex α W) :=
  forE (fun p l => forE (fun p a => forE (fun p b =>
      if a ≠ b then (p.setItem [ix a, ix b, l, l] 1).toExcept else .ok p) (List.range nodes) p) (List.range nodes) p)
    layers (MPlex.init [coupling] false 0 true)

/-- `full` (models.py 395-438) -/
def full (ix : Nat → α) (nodes : Nat) (layers : Option (Nat ⊕ List α)) (coupling : Coupling α W) :
    Except Err (Either α W) :=
  match layers with
  | none => (fullMono ix nodes).map .mono
  | some (.inl k) => (fullPlex ix nodes (rangeNames ix k) coupling).map .plex
  | some (.inr ls) => (fullPlex ix nodes ls coupling).map .plex

/-- `full_multilayer` (models.py 440-468) -/
def fullMultilayer (ix : Nat → α) (nodes : Nat) (layers : Nat ⊕ List α) : Except Err (MNet α W) :=
  let layers := match layers with | .inl k => rangeNames ix k | .inr ls => ls
  forE (fun m l1 => forE (fun m l2 => forE (fun m a => forE (fun m b =>
      if a ≠ b ∨ l1 ≠ l2 then (m.setItem [ix a, ix b, l1, l2] 1).toExcept else .ok m)
    (List.range nodes) m) (List.range nodes) m) layers m) layers (MNet.init 1 0 false true)

/-- `er_multilayer` (models.py 470-508). `r` and `w` are the values of the two calls of `random.random()`, named by the
positions of the layers in the list and by the nodes. -/
noncomputable def erMultilayer (ix : Nat → α) (nodes : Nat) (layers : Nat ⊕ List α) (p : ℝ) (randomWeights : Bool)
    (r : Nat → Nat → Nat → Nat → ℝ) (w : Nat → Nat → Nat → Nat → W) : Except Err (MNet α W) :=
  let layers := match layers with | .inl k => rangeNames ix k | .inr ls => ls
  forE (fun m l1 => forE (fun m l2 => forE (fun m a => forE (fun m b =>
      if a ≠ b ∨ l1.1 ≠ l2.1 then
        if r l1.2 l2.2 a b < p then
          (m.setItem [ix a, ix b, l1.1, l2.1] (if randomWeights then w l1.2 l2.2 a b else 1)).toExcept
        else .ok m
      else .ok m)
    (List.range' (a + 1) (nodes - (a + 1))) m) (List.range nodes) m) layers.zipIdx m) layers.zipIdx
    (MNet.init 1 0 false true)

/-! ### ba_total_degree -/

/-- `while len(link_set) < m: link_set = link_set | set(random.sample(links, m - len(link_set)))` (models.py 825-826). A
draw is the list of the positions in `links` that are taken. Returns the link set and the draws that are left. -/
def baDraw (links : List Nat) (m : Nat) : List (List Nat) → List Nat → Except Stop (List Nat × List (List Nat))
  | draws, linkSet =>
    if linkSet.length < m then
      if links.length < m - linkSet.length then .error (.raised .valueError)
      else
        match draws with
        | [] => .error .more
        | d :: draws =>
          if ¬ (d.Nodup ∧ d.length = m - linkSet.length ∧ ∀ i ∈ d, i < links.length) then .error .more
          else baDraw links m draws ((d.filterMap (links[·]?)).foldl sadd linkSet)
    else .ok (linkSet, draws)

/-- the link set of node `i` on a layer with parameter `m` (models.py 820-829) -/
def baLinkSet (links : List Nat) (i m : Nat) (draws : List (List Nat)) : Except Stop (List Nat × List (List Nat)) :=
  if i = m then .ok (List.range i, draws)
  else if m < i then baDraw links m draws []
  else .ok ([], draws)

/-- State of the loops of `ba_total_degree`: the network, the sets of the current node, and the draws to come. -/
structure BaState (α W : Type) where
  net : MPlex α W
  linkSets : List (List Nat)
  draws : List (List Nat)

/-- the body of the loop over the layers (models.py 819-834) -/
def baLayer (ix : Nat → α) (links : List Nat) (i : Nat) (st : BaState α W) (lm : Nat × Nat) :
    Except Stop (BaState α W) :=
  match baLinkSet links i lm.2 st.draws with
  | .error e => .error e
  | .ok (linkSet, draws) =>
    match forE (fun net j => (net.setItem [ix i, ix j, ix lm.1] 1).toExcept) linkSet st.net with
    | .error e => .error (.raised e)
    | .ok net => .ok ⟨net, st.linkSets ++ [linkSet], draws⟩

/-- the body of the loop over the nodes (models.py 816-838) -/
def baNode (ix : Nat → α) (ms : List Nat) (st : (MPlex α W × List Nat) × List (List Nat)) (i : Nat) :
    Except Stop ((MPlex α W × List Nat) × List (List Nat)) :=
  match (st.1.1.addNode (ix i) none).toExcept with
  | .error e => .error (.raised e)
  | .ok net =>
    match forS (baLayer ix st.1.2 i) ((List.range ms.length).zip ms) ⟨net, [], st.2⟩ with
    | .error e => .error e
    | .ok b =>
      .ok ((b.net, b.linkSets.foldl (fun links s => links ++ s ++ List.replicate s.length i) st.1.2), b.draws)

/-- `ba_total_degree` (models.py 785-840) -/
def baTotalDegree (ix : Nat → α) (n : Nat) (ms : List Nat) (coupling : Coupling α W) (draws : List (List Nat)) :
    Except Stop (MPlex α W) :=
  match forS (baNode ix ms) (List.range n) ((MPlex.init [coupling] false 0 true, []), draws) with
  | .error e => .error e
  | .ok st => .ok st.1.1

/-! ### er_overlaps_match_aggregated -/

/-- State of `er_overlaps_match_aggregated`: the network, the used edges, and the draws to come. -/
structure OvState (α W : Type) where
  net : MPlex α W
  used : List (Int × Int)
  draws : List Nat

/-- The loop `while i < count` (models.py 757-767, 771-780): draws edges until `count` new ones are found, and sets them on
`layers`. `random.choice` of an empty range raises `IndexError`. `ix` names the nodes. -/
noncomputable def ovLoop (ix : Nat → α) (n : Nat) (layers : List α) (count : Int) :
    List Nat → Int → MPlex α W → List (Int × Int) → Except Stop (OvState α W)
  | draws, i, net, used =>
    if i < count then
      if n * (n - 1) / 2 = 0 then .error (.raised .indexError)
      else
        match draws with
        | [] => .error .more
        | e :: draws =>
          if ¬ e < n * (n - 1) / 2 then .error .more
          else
            let edge := (edgeCol e, edgeRow e)
            if edge ∉ used then
              match forE (fun net l => (net.setItem [ix edge.1.toNat, ix edge.2.toNat, l] 1).toExcept) layers net with
              | .error e => .error (.raised e)
              | .ok net => ovLoop ix n layers count draws (i + 1) net (sadd used edge)
            else ovLoop ix n layers count draws i net used
    else .ok ⟨net, used, draws⟩

/-- the loop over the layer combinations (models.py 747-768). `m` gives `int(round(p*edges))` for each combination. -/
noncomputable def ovCombs (ix : Nat → α) (n : Nat) (edges : Int) (st : OvState α W × Dict α Int)
    (c : List α × Int) : Except Stop (OvState α W × Dict α Int) :=
  if c.1.length = 1 then
    .ok (st.1, c.1.foldl (fun d l => Dict.set d l ((Dict.get d l).getD edges)) st.2)
  else if 1 < c.1.length then
    let left := c.1.foldl (fun d l => Dict.set d l ((Dict.get d l).getD edges - c.2)) st.2
    match ovLoop ix n c.1 (c.1.length * c.2) st.1.draws 0 st.1.net st.1.used with
    | .error e => .error e
    | .ok s => .ok (s, left)
  else .ok st

/-- `er_overlaps_match_aggregated` (models.py 708-782). `ps` lists the layer combinations with `int(round(p*edges))`. -/
noncomputable def erOverlaps (ix : Nat → α) (n : Nat) (edges : Int) (ps : List (List α × Int)) (coupling : Coupling α W)
    (draws : List Nat) : Except Stop (MPlex α W) :=
  match forS (ovCombs ix n edges) ps (⟨MPlex.init [coupling] false 0 true, [], draws⟩, []) with
  | .error e => .error e
  | .ok (st, left) =>
    match forS (fun st (l : α × Int) => ovLoop ix n [l.1] l.2 st.draws 0 st.net st.used) left st with
    | .error e => .error e
    | .ok st => .ok st.net

end

end Pymnet.Models
