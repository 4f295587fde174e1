import Verif.Model.Clustering
import Verif.Model.Transforms
import Mathlib.Algebra.Order.Floor.Defs

/-!
Model of the elementary cycles of multiplex networks and of the clustering coefficients computed from them
(`/repo/pymnet/cc.py` 314-625, 757-1115). Counts are integers; weights and coefficients are elements of an
ordered field. Generators are lists. The versions with numpy matrices are in `Model/CycleAdj.lean`. Not modelled: the unused argument `undefReturn`;
the unused variable `other_layers` (371, 511), a lazy `map`; `elementary_cycles` nests lazy `map` objects, whose evaluation may
exhaust the C stack on very large networks.
-/

namespace Pymnet

open Py

/-- The tuple returned by the cycle counting functions (cc.py 486, 625). -/
structure Cycles where
  aaa : Int
  aacac : Int
  acaac : Int
  acaca : Int
  acacac : Int
  afa : Int
  afcac : Int
  acfac : Int
  acfca : Int
  acfcac : Int
  deriving DecidableEq, Repr

/-- the tuple as a list -/
def Cycles.toList (x : Cycles) : List Int :=
  [x.aaa, x.aacac, x.acaac, x.acaca, x.acacac, x.afa, x.afcac, x.acfac, x.acfca, x.acfcac]

/-- `map(lambda x,y:x+y, ...)` of two tuples (cc.py 346, 351) -/
def Cycles.add (x y : Cycles) : Cycles :=
  ⟨x.aaa + y.aaa, x.aacac + y.aacac, x.acaac + y.acaac, x.acaca + y.acaca, x.acacac + y.acacac,
    x.afa + y.afa, x.afcac + y.afcac, x.acfac + y.acfac, x.acfca + y.acfca, x.acfcac + y.acfcac⟩

/-- `[0 for i in range(10)]` (cc.py 340) -/
def Cycles.zero : Cycles := ⟨0, 0, 0, 0, 0, 0, 0, 0, 0, 0⟩

namespace View

variable {α W : Type} [DecidableEq α] [DecidableEq W]

/-- `for i in net[n]` in a monoplex network: the names of the neighbours. -/
def names (v : View α W) (n : α) : Except Err (List α) := do
  let ns ← v.neighbors [n]
  mapE name1 ns

/-- unpacking a node-layer into two variables -/
def pair2 : List α → Except Err (α × α)
  | [x, y] => .ok (x, y)
  | _ => .error .valueError

/-- `for x,y in net[item]` with colons in the item (net.py 488-505, 741-764). -/
def iterPairs (v : View α W) (item : List (Idx α)) : Except Err (List (α × α)) :=
  match v.getItem item with
  | .ok (.node n ds) => do
    let ns ← v.iterTotal n ds
    mapE pair2 ns
  | .ok (.weight _) => .error .typeError
  | .error e => .error e

/-- `for dummy,layer2 in net[i,i,layer,:]`: the layers. -/
def couplingLayers (v : View α W) (i layer : α) : Except Err (List α) := do
  let ps ← v.iterPairs [.val i, .val i, .val layer, .colon]
  pure (ps.map Prod.snd)

/-- `for j,dummy in net[i,:,layer,layer]`: the nodes. -/
def layerNeighbors (v : View α W) (i layer : α) : Except Err (List α) := do
  let ps ← v.iterPairs [.val i, .colon, .val layer, .val layer]
  pure (ps.map Prod.fst)

/-- `net[item].deg()` with colons in the item (net.py 488-505, 687-694). -/
def sliceDeg (v : View α W) (item : List (Idx α)) : Except Err Int :=
  match v.getItem item with
  | .ok (.node n ds) => v.deg n ds
  | .ok (.weight _) => .error .typeError
  | .error e => .error e

/-- `if net[x,layer2][y,layer2]!=net.noEdge: s+=1` -/
def countLink (v : View α W) (x y layer : α) (s : Int) : Except Err Int := do
  let w ← v.num2 [x, layer] [y, layer]
  pure (if w ≠ v.noEdge then s + 1 else s)

end View

namespace MPlex

variable {α W : Type} [DecidableEq α] [IntNames α] [DecidableEq W]

/-- `net.A[layer]` -/
def layerNet (p : MPlex α W) (layer : α) : Except Err (MNet α W) :=
  match p.child? (.el layer) with
  | none => .error .keyError
  | some c => .ok c

/-- `aaa` (cc.py 373-378, 513-518). -/
def bfAaa (c : MNet α W) (node : α) : Except Err Int := do
  let k ← c.view.itemDeg [node]
  if 2 ≤ k then
    let ns ← c.view.neighbors [node]
    let t ← forPairs c.view.ccPair ns 0
    pure ((t : Int) * 2)
  else pure 0

/-- `aacac` (cc.py 380-386). -/
def bfAacac (p : MPlex α W) (c : MNet α W) (node layer : α) : Except Err Int := do
  let is ← c.view.names node
  forE (fun s i => do
    let js ← c.view.names i
    forE (fun s j => do
      let ls ← p.view.couplingLayers j layer
      forE (fun s l => p.view.countLink j node l s) ls s) js s) is 0

/-- `acaac` (cc.py 388-394, 527-532). -/
def bfAcaac (p : MPlex α W) (c : MNet α W) (node layer : α) : Except Err Int := do
  let is ← c.view.names node
  forE (fun s i => do
    let ls ← p.view.couplingLayers i layer
    forE (fun s l => do
      let js ← p.view.layerNeighbors i l
      forE (fun s j => p.view.countLink j node l s) js s) ls s) is 0

/-- `acaca` (cc.py 396-403). -/
def bfAcaca (p : MPlex α W) (c : MNet α W) (node layer : α) : Except Err Int := do
  let k ← c.view.itemDeg [node]
  if 2 ≤ k then
    let is ← c.view.names node
    let t ← forPairs (fun s i j => do
      let ls ← p.view.couplingLayers i layer
      forE (fun s l => p.view.countLink i j l s) ls s) is 0
    pure (t * 2)
  else pure 0

/-- `acacac` (cc.py 405-418). -/
def bfAcacac (p : MPlex α W) (c : MNet α W) (node layer : α) : Except Err Int := do
  let is ← c.view.names node
  forE (fun s i => do
    let ls ← p.view.couplingLayers i layer
    forE (fun s l => do
      let js ← p.view.layerNeighbors i l
      forE (fun s j => do
        let l3s ← p.view.couplingLayers j l
        forE (fun s l3 => if l3 ≠ layer then p.view.countLink j node l3 s else pure s) l3s s) js s) ls s) is 0

/-- `afa` (cc.py 421-422). -/
def bfAfa (c : MNet α W) (node : α) : Except Err Int := do
  let k ← c.view.itemDeg [node]
  pure (k * (k - 1))

/-- `afcac` (cc.py 424-432). -/
def bfAfcac (p : MPlex α W) (c : MNet α W) (node layer : α) : Except Err Int := do
  let neighbors ← c.view.names node
  let ls ← p.view.couplingLayers node layer
  forE (fun s l => do
    let is ← p.view.layerNeighbors node l
    forE (fun s i => do
      let w ← p.view.num [i, i, layer, l]
      pure (if w ≠ p.noEdge then
        if i ∈ neighbors then s + ((neighbors.length : Int) - 1) else s + (neighbors.length : Int)
      else s)) is s) ls 0

/-- `acfac` if the network is not node-aligned (cc.py 446-453). -/
def bfAcfac [Zero W] (p : MPlex α W) (c : MNet α W) (node layer : α) : Except Err Int := do
  let is ← c.view.names node
  forE (fun s i => do
    let ls ← p.view.couplingLayers i layer
    forE (fun s l => do
      let w ← p.view.num [node, node, layer, l]
      if w ≠ p.noEdge then
        let w2 ← p.view.num [node, i, l, l]
        let k ← p.view.sliceDeg [.val node, .colon, .val l, .val l]
        pure (if w2 ≠ 0 then s + (k - 1) else s + k)
      else pure s) ls s) is 0

/-- the dictionary `layertonode` (cc.py 456-461). -/
def layerToNode (p : MPlex α W) (c : MNet α W) (node layer : α) : Except Err (Dict α (List α)) := do
  let is ← c.view.names node
  forE (fun D i => do
    let ls ← p.view.couplingLayers i layer
    pure (ls.foldl (fun D l => Dict.set D l (sadd ((Dict.get D l).getD []) i)) D)) is []

/-- `acfca` if the network is not node-aligned (cc.py 455-466). -/
def bfAcfca (p : MPlex α W) (c : MNet α W) (node layer : α) : Except Err Int := do
  let D ← p.layerToNode c node layer
  pure ((D.map fun x => (x.2.length : Int) * ((x.2.length : Int) - 1)).sum)

/-- `acfcac` if the network is not node-aligned (cc.py 469-483). -/
def bfAcfcac (p : MPlex α W) (c : MNet α W) (node layer : α) : Except Err Int := do
  let is ← c.view.names node
  forE (fun s i => do
    let l3s ← p.view.couplingLayers node layer
    forE (fun s l3 => do
      let js ← p.view.layerNeighbors node l3
      forE (fun s j => do
        if i ≠ j then
          let ki ← p.view.sliceDeg [.val i, .val i, .val layer, .colon]
          let kj ← p.view.sliceDeg [.val j, .val j, .val l3, .colon]
          if ki > kj then
            let l2s ← p.view.couplingLayers j l3
            forE (fun s l2 => do
              if l2 ≠ layer then
                let w ← p.view.num [i, i, layer, l2]
                pure (if w ≠ p.noEdge then s + 1 else s)
              else pure s) l2s s
          else
            let l2s ← p.view.couplingLayers i layer
            forE (fun s l2 => do
              if l2 ≠ l3 then
                let w ← p.view.num [j, j, l3, l2]
                pure (if w ≠ p.noEdge then s + 1 else s)
              else pure s) l2s s
        else pure s) js s) l3s s) is 0

/-- `cc_cycle_vector_bf` (cc.py 355-486). -/
def cyclesBf [Zero W] (p : MPlex α W) (node layer : α) : Except Err Cycles := do
  if p.aspects = 1 then
    let c ← p.layerNet layer
    let aaa ← bfAaa c node
    let aacac ← p.bfAacac c node layer
    let acaac ← p.bfAcaac c node layer
    let acaca ← p.bfAcaca c node layer
    let acacac ← p.bfAcacac c node layer
    let afa ← bfAfa c node
    let afcac ← p.bfAfcac c node layer
    if p.fic then
      let ls ← p.view.layers1
      pure ⟨aaa, aacac, acaac, acaca, acacac, afa, afcac, afcac, afa * ((ls.length : Int) - 1),
        afcac * ((ls.length : Int) - 2)⟩
    else
      let acfac ← p.bfAcfac c node layer
      let acfca ← p.bfAcfca c node layer
      let acfcac ← p.bfAcfcac c node layer
      pure ⟨aaa, aacac, acaac, acaca, acacac, afa, afcac, acfac, acfca, acfcac⟩
  else .error .assertionError

section anet

variable {K : Type} [Field K] [LinearOrder K] [FloorRing K]

/-- `int(x)` -/
def pyInt (x : K) : Int := if 0 ≤ x then ⌊x⌋ else ⌈x⌉

/-- `aacac+=int(anet[j,node]); if net[j,node,layer]!=net.noEdge: aacac+= -1` (cc.py 523-525, 537-539, 581-583, 592-594). -/
def otherLayers (p : MPlex α K) (anet : View α K) (x y layer : α) (s : Int) : Except Err Int := do
  let a ← anet.num [x, y]
  let w ← p.view.num [x, y, layer]
  pure (if w ≠ p.noEdge then s + pyInt a + -1 else s + pyInt a)

/-- `aacac` of one layer from the aggregated network (cc.py 520-525, 577-583). -/
def anAacac (p : MPlex α K) (anet : View α K) (c : MNet α K) (node layer : α) (s : Int) : Except Err Int := do
  let is ← c.view.names node
  forE (fun s i => do
    let js ← c.view.names i
    forE (fun s j => p.otherLayers anet j node layer s) js s) is s

/-- the pairs of `acaca` of one layer from the aggregated network (cc.py 534-539, 588-594). -/
def anAcaca (p : MPlex α K) (anet : View α K) (c : MNet α K) (node layer : α) (s : Int) : Except Err Int := do
  let k ← c.view.itemDeg [node]
  if 2 ≤ k then
    let is ← c.view.names node
    forPairs (fun s i j => p.otherLayers anet i j layer s) is s
  else pure s

/-- `acacac` of one layer from the aggregated network (cc.py 542-550). -/
def anAcacac (p : MPlex α K) (anet : View α K) (c : MNet α K) (node layer : α) : Except Err Int := do
  let is ← c.view.names node
  forE (fun s i => do
    let ls ← p.view.couplingLayers i layer
    forE (fun s l => do
      let js ← p.view.layerNeighbors i l
      forE (fun s j => do
        let s ← p.otherLayers anet j node layer s
        let w ← p.view.num [j, node, l]
        pure (if w ≠ p.noEdge then s + -1 else s)) js s) ls s) is 0

/-- `afcac` of one layer from the aggregated network (cc.py 556-563, 610-618). -/
def anAfcac (p : MPlex α K) (anet : View α K) (c : MNet α K) (node layer : α) (s : Int) : Except Err Int := do
  let neighbors ← c.view.names node
  let is ← anet.names node
  forE (fun s i => do
    let w ← p.view.num [i, node, layer]
    let a ← anet.num [i, node]
    let ledges := if w ≠ p.noEdge then pyInt a - 1 else pyInt a
    pure (if i ∈ neighbors then s + ((neighbors.length : Int) - 1) * ledges else s + (neighbors.length : Int) * ledges)) is s

/-- the sum over pairs for `acacac` (cc.py 598-602). -/
def anTot (p : MPlex α K) (anet : View α K) (node : α) : Except Err Int := do
  let k ← anet.itemDeg [node]
  if 2 ≤ k then
    let is ← anet.names node
    forPairs (fun s i j => do
      let ij ← anet.num [i, j]
      if ij ≠ p.noEdge then
        let ni ← anet.num [node, i]
        let jn ← anet.num [j, node]
        pure (s + pyInt ni * pyInt ij * pyInt jn)
      else pure s) is 0
  else pure 0

/-- `aaa` of one layer, before it is doubled (cc.py 570-574). -/
def anAaa (c : MNet α K) (node : α) (s : Int) : Except Err Int := do
  let k ← c.view.itemDeg [node]
  if 2 ≤ k then
    let ns ← c.view.neighbors [node]
    let t ← forPairs c.view.ccPair ns 0
    pure (s + (t : Int))
  else pure s

/-- a loop `for layer in net.iter_layers()` over the intra-layer networks -/
def onLayers (p : MPlex α K) (ls : List α) (f : MNet α K → α → Int → Except Err Int) : Except Err Int :=
  forE (fun s l => do
    let c ← p.layerNet l
    f c l s) ls 0

/-- `cc_cycle_vector_anet` (cc.py 489-625). -/
def cyclesAnet (p : MPlex α K) (node : α) (layer : Option α) (anet : View α K) : Except Err Cycles := do
  if p.aspects = 1 ∧ p.fic = true then
    let ls ← p.view.layers1
    match layer with
    | some layer =>
      let c ← p.layerNet layer
      let aaa ← bfAaa c node
      let aacac ← p.anAacac anet c node layer 0
      let acaac ← p.bfAcaac c node layer
      let acaca ← p.anAcaca anet c node layer 0
      let acacac ← p.anAcacac anet c node layer
      let afa ← bfAfa c node
      let afcac ← p.anAfcac anet c node layer 0
      pure ⟨aaa, aacac, acaac, acaca * 2, acacac, afa, afcac, afcac, afa * ((ls.length : Int) - 1),
        afcac * ((ls.length : Int) - 2)⟩
    | none =>
      let aaa ← p.onLayers ls fun c _ s => anAaa c node s
      let aacac ← p.onLayers ls fun c l s => p.anAacac anet c node l s
      let acaca ← p.onLayers ls fun c l s => p.anAcaca anet c node l s
      let tot ← p.anTot anet node
      let afa ← p.onLayers ls fun c _ s => do
        let k ← bfAfa c node
        pure (s + k)
      let afcac ← p.onLayers ls fun c l s => p.anAfcac anet c node l s
      pure ⟨aaa * 2, aacac, aacac, acaca * 2, 2 * tot - aaa * 2 - aacac - aacac - acaca * 2, afa, afcac, afcac,
        afa * ((ls.length : Int) - 1), afcac * ((ls.length : Int) - 2)⟩
  else .error .assertionError

/-- the sum over nodes in `elementary_cycles`, with the aggregated network (cc.py 345-346). -/
def sumAnet (p : MPlex α K) (nodes : List α) (layer : Option α) (anet : View α K) : Except Err Cycles :=
  forE (fun (s : Cycles) n => do
    let v ← p.cyclesAnet n layer anet
    pure (s.add v)) nodes .zero

/-- the sum over layers and nodes in `elementary_cycles` (cc.py 348-351). -/
def sumBf (p : MPlex α K) (ls nodes : List α) : Except Err Cycles :=
  forE (fun (s : Cycles) l => forE (fun (s : Cycles) n => do
    let v ← p.cyclesBf n l
    pure (s.add v)) nodes s) ls .zero

/-- `elementary_cycles` (cc.py 314-352) for a network with one aspect. -/
def elementaryCycles (p : MPlex α K) (node layer : Option α) (anet : Option (View α K)) : Except Err Cycles :=
  match node, layer with
  | some n, some l => p.cyclesBf n l
  | _, _ => do
    let nodes := match node with
      | none => p.view.nodes
      | some n => [n]
    if p.fic = true ∧ (anet.isSome ∨ node = none) then
      match anet with
      | some a => p.sumAnet nodes layer a
      | none =>
        let a ← p.view.aggregate [1] false
        p.sumAnet nodes layer a.view
    else
      let ls ← (match layer with
        | none => p.view.layers1
        | some l => pure [l])
      p.sumBf ls nodes

/-! ### The coefficients -/

/-- `t1`, `t2`, `t3` of the coefficients (cc.py 791-795). -/
def closedOf (v : Cycles) : Int × Int × Int := (v.aaa, v.aacac + v.acaac + v.acaca, v.acacac)

/-- `d1`, `d2`, `d3` of the coefficients (cc.py 792-796). -/
def possibleOf (v : Cycles) : Int × Int × Int := (v.afa, v.afcac + v.acfac + v.acfca, v.acfcac)

/-- `if d!=0: c=t/float(d) else: c=0` -/
def ratio0 (t d : Int) : K := if d ≠ 0 then (t : K) / (d : K) else 0

/-- the tuple `c1,c2,c3` (cc.py 798-809). -/
def awVector (t d : Int × Int × Int) : K × K × K := (ratio0 t.1 d.1, ratio0 t.2.1 d.2.1, ratio0 t.2.2 d.2.2)

/-- the value returned without `returnCVector` (cc.py 813-823). -/
def awValue (w1 w2 : K) (w3 : Option K) (t d : Int × Int × Int) : K :=
  match w3 with
  | some w3 => w1 * ratio0 t.1 d.1 + w2 * ratio0 t.2.1 d.2.1 + w3 * ratio0 t.2.2 d.2.2
  | none =>
    let t := (t.1 : K) * w1 ^ 3 + (t.2.1 : K) * w1 * w2 * w2 + (t.2.2 : K) * w2 ^ 3
    let d := (d.1 : K) * w1 ^ 3 + (d.2.1 : K) * w1 * w2 * w2 + (d.2.2 : K) * w2 ^ 3
    if d ≠ 0 then t / d else 0

/-- `lcc_aw` (cc.py 757-823). -/
def lccAw (p : MPlex α K) (node layer : α) (w1 w2 : K) (w3 : Option K) (anet : Option (View α K)) : Except Err K := do
  let v ← p.elementaryCycles (some node) (some layer) anet
  pure (awValue w1 w2 w3 (closedOf v) (possibleOf v))

/-- `lcc_aw` with `returnCVector=True`. -/
def lccAwVector (p : MPlex α K) (node layer : α) (anet : Option (View α K)) : Except Err (K × K × K) := do
  let v ← p.elementaryCycles (some node) (some layer) anet
  pure (awVector (closedOf v) (possibleOf v))

/-- `sncc_aw` (cc.py 871-945). -/
def snccAw (p : MPlex α K) (node : α) (w1 w2 : K) (w3 : Option K) (anet : Option (View α K)) : Except Err K := do
  let v ← p.elementaryCycles (some node) none anet
  pure (awValue w1 w2 w3 (closedOf v) (possibleOf v))

/-- `sncc_aw` with `returnCVector=True`. -/
def snccAwVector (p : MPlex α K) (node : α) (anet : Option (View α K)) : Except Err (K × K × K) := do
  let v ← p.elementaryCycles (some node) none anet
  pure (awVector (closedOf v) (possibleOf v))

/-- `gcc_aw` (cc.py 965-1039). -/
def gccAw (p : MPlex α K) (w1 w2 : K) (w3 : Option K) : Except Err K := do
  let v ← p.elementaryCycles none none none
  pure (awValue w1 w2 w3 (closedOf v) (possibleOf v))

/-- `gcc_aw` with `returnCVector=True`. -/
def gccAwVector (p : MPlex α K) : Except Err (K × K × K) := do
  let v ← p.elementaryCycles none none none
  pure (awVector (closedOf v) (possibleOf v))

/-- the sum and the number of terms of `avg_lcc_aw` (cc.py 854-863). -/
def avgSum (p : MPlex α K) (w1 w2 : K) (w3 : Option K) : Except Err (K × K) := do
  let ls ← p.view.layers1
  forE (fun s l => do
    let c ← p.layerNet l
    forE (fun (s : K × K) n => do
      let x ← p.lccAw n l w1 w2 w3 none
      pure (s.1 + x, s.2 + 1)) c.view.nodes s) ls (0, 0)

/-- `avg_lcc_aw` (cc.py 825-868), without `returnCVector`. -/
def avgLccAw (p : MPlex α K) (w1 w2 : K) (w3 : Option K) : Except Err K := do
  let s ← p.avgSum w1 w2 w3
  divE s.1 s.2

/-- `sncc_aw_layercost` (cc.py 947-961). -/
def snccLayercost (p : MPlex α K) (node : α) (a b : K) : Except Err K := do
  let ls ← p.view.layers1
  let v ← p.sumBf ls [node]
  let t := closedOf v
  let d := possibleOf v
  pure (if a ^ 3 * (d.1 : K) + a * b ^ 2 * (d.2.1 : K) + b ^ 3 * (d.2.2 : K) ≠ 0 then
    (a ^ 3 * (t.1 : K) + a * b ^ 2 * (t.2.1 : K) + b ^ 3 * (t.2.2 : K)) /
      (a ^ 3 * (d.1 : K) + a * b ^ 2 * (d.2.1 : K) + b ^ 3 * (d.2.2 : K))
    else 0)

/-- `sncc_aw_seplayers` (cc.py 1083-1115); `none` is the value of `undefined`. -/
def snccSeplayers (p : MPlex α K) (node : α) (w1 w2 w3 : K) : Except Err (Option K) := do
  let ls ← p.view.layers1
  let v ← p.sumBf ls [node]
  let t := closedOf v
  let d := possibleOf v
  pure (if d.1 = 0 ∧ 0 < w1 then none
    else if d.2.1 = 0 ∧ 0 < w2 then none
    else if d.2.2 = 0 ∧ 0 < w3 then none
    else some (w1 * ratio0 t.1 d.1 + w2 * ratio0 t.2.1 d.2.1 + w3 * ratio0 t.2.2 d.2.2))

/-- the sums of `gcc_moreno2_seplayers` (cc.py 1045-1054). -/
def moreno2Sum (p : MPlex α K) : Except Err Cycles := do
  let ls ← p.view.layers1
  forE (fun (s : Cycles) l => do
    let c ← p.layerNet l
    forE (fun (s : Cycles) n => do
      let v ← p.cyclesBf n l
      pure (s.add v)) c.view.nodes s) ls .zero

/-- `gcc_moreno2_seplayers` (cc.py 1042-1080). The sums of the weighted terms are weighted sums here. -/
def gccMoreno2 (p : MPlex α K) (w1 w2 : K) (w3 : Option K) : Except Err K := do
  let v ← p.moreno2Sum
  pure (awValue w1 w2 w3 (v.aaa, 2 * v.aacac + 2 * v.acaac + v.acaca, 2 * v.acacac)
    (v.afa, 2 * v.afcac + 2 * v.acfac + v.acfca, 2 * v.acfcac))

end anet

end MPlex

end Pymnet
