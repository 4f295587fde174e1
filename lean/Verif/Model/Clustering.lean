import Verif.Model.Plex
import Verif.Model.Sampling
import Verif.Model.Diagnostics
import Mathlib.Algebra.Order.Field.Rat

/-!
Model of the clustering coefficients of `/repo/pymnet/cc.py` (1-313, 1214-1397, 1400-1706), except
`cc_onnela` (in `Model/Onnela.lean`). The cycle counts are in `Model/Cycles.lean`.

Numbers are exact: weights and coefficients are elements of a linearly ordered field `K` (counts and
coefficients computed from counts are rational numbers). A result `none` stands for the value of
`undefReturn`, or for `None` where the code returns `None`.
-/

namespace Pymnet

open Py

/-- one pair of `for i,j in itertools.combinations(...,2)`. -/
def onPair {σ β : Type} (f : σ → β → β → Except Err σ) (s : σ) : List β → Except Err σ
  | [i, j] => f s i j
  | _ => .error .valueError

/-- `for i,j in itertools.combinations(l,2)`. -/
def forPairs {σ β : Type} (f : σ → β → β → Except Err σ) (l : List β) (s : σ) : Except Err σ :=
  forE (onPair f) (combinations l 2) s

/-- `a/float(b)`. -/
def divE {K : Type} [Zero K] [Div K] [DecidableEq K] (a b : K) : Except Err K :=
  if b = 0 then .error .zeroDivisionError else .ok (a / b)

namespace View

variable {α W : Type} [DecidableEq α] [DecidableEq W]

/-- `net[item]` used as a number. -/
def num (v : View α W) (item : List α) : Except Err W := do
  let x ← v.readItem item
  x.num

/-- `net[a][b]` used as a number. -/
def num2 (v : View α W) (a b : List α) : Except Err W := do
  let x ← v.nodeGet a (b.map .val)
  x.num

/-- the list of the nodes yielded by `iter(net[nl])` (net.py 741-742, 757-764). -/
def neighbors (v : View α W) (nl : List α) : Except Err (List (List α)) :=
  match v.getItem (nl.map .val) with
  | .ok (.node n ds) => v.iterTotal n ds
  | .ok (.weight _) => .error .typeError
  | .error e => .error e

/-- the nodes of a network: `for h in net`, `list(net)`, `net.slices[0]`. -/
def nodes (v : View α W) : List α := v.slices.headD []

/-- `net.slices[1]`, `net.get_layers()` (net.py 612-620). -/
def layers1 (v : View α W) : Except Err (List α) :=
  match v.slices[1]? with
  | none => .error .indexError
  | some l => .ok l

/-- the body of the loop of `cc_num_den` (cc.py 11-13). -/
def ccPair (v : View α W) (t : Nat) (i j : List α) : Except Err Nat := do
  let w ← v.num2 i j
  pure (if w ≠ v.noEdge then t + 1 else t)

/-- `cc_num_den` (cc.py 8-14). -/
def ccNumDen (v : View α W) (nl : List α) : Except Err (Nat × ℚ) := do
  let k ← v.itemDeg nl
  let ns ← v.neighbors nl
  let t ← forPairs v.ccPair ns 0
  pure (t, ((k * (k - 1) : Int) : ℚ) / 2)

/-- `lcc` (cc.py 16-49). -/
def lcc (v : View α W) (nl : List α) : Except Err (Option ℚ) := do
  let k ← v.itemDeg nl
  if 2 ≤ k then
    let r ← v.ccNumDen nl
    let q ← divE (r.1 : ℚ) r.2
    pure (some q)
  else pure none

/-- one step of `gcc_super_graph` (cc.py 306-309). -/
def superStep (v : View α W) (s : Nat × ℚ) (nl : List α) : Except Err (Nat × ℚ) := do
  let r ← v.ccNumDen nl
  pure (s.1 + r.1, s.2 + r.2)

/-- `gcc_super_graph` (cc.py 304-313). -/
def gccSuperGraph (v : View α W) : Except Err (Option ℚ) := do
  let s ← forE v.superStep (product v.slices) (0, 0)
  pure (if s.2 ≠ 0 then some (s.1 / s.2) else none)

/-! ### Battiston et al. -/

/-- the sum over nodes `v` and `h` other than `node` of the pairs satisfying a condition, the inner loops of
`lcc_battiston1` and `lcc_battiston2` (cc.py 1544-1550, 1561-1566, 1618-1623, 1633-1638). -/
def countVH (v : View α W) (node : α) (cond : α → α → Except Err Bool) (s : Nat) : Except Err Nat :=
  forE (fun s x =>
    if x ≠ node then
      forE (fun s h =>
        if h ≠ node then do
          let c ← cond x h
          pure (if c then s + 1 else s)
        else pure s) v.nodes s
    else pure s) v.nodes s

/-- `net[a,b,layer] != net.noEdge`. -/
def hasLink3 (v : View α W) (a b layer : α) : Except Err Bool := do
  let w ← v.num [a, b, layer]
  pure (decide (w ≠ v.noEdge))

/-- `net[node,v,a] != net.noEdge and net[h,node,b] != net.noEdge` (cc.py 1549, 1623). -/
def wedge (v : View α W) (node a b : α) (x h : α) : Except Err Bool := do
  if ← v.hasLink3 node x a then v.hasLink3 h node b else pure false

/-- `net[node,v,a] != net.noEdge and net[v,h,g] != net.noEdge and net[h,node,b] != net.noEdge`
(cc.py 1566, 1638). -/
def closed (v : View α W) (node a g b : α) (x h : α) : Except Err Bool := do
  if ← v.hasLink3 node x a then
    if ← v.hasLink3 x h g then v.hasLink3 h node b else pure false
  else pure false

/-- `lcc_battiston1` (cc.py 1502-1569). -/
def battiston1 (v : View α W) (node : α) : Except Err (Option ℚ) := do
  if v.aspects = 1 then
    let ls ← v.layers1
    if 2 ≤ ls.length then
      let d ← forE (fun s a => v.countVH node (v.wedge node a a) s) ls 0
      if d = 0 then pure none
      else
        let s ← forE (fun s a => forE (fun s b =>
          if b ≠ a then v.countVH node (v.closed node a b a) s else pure s) ls s) ls 0
        let q ← divE (s : ℚ) (d : ℚ)
        let q ← divE q ((ls.length : ℚ) - 1)
        pure (some q)
    else .error .assertionError
  else .error .assertionError

/-- `lcc_battiston2` (cc.py 1573-1645). -/
def battiston2 (v : View α W) (node : α) : Except Err (Option ℚ) := do
  if v.aspects = 1 then
    let ls ← v.layers1
    if ls.length < 3 then pure none
    else
      let d ← forE (fun s a => forE (fun s b =>
        if b ≠ a then v.countVH node (v.wedge node a b) s else pure s) ls s) ls 0
      if d = 0 then pure none
      else
        let s ← forE (fun s a => forE (fun s b =>
          if b ≠ a then
            forE (fun s g => if g ≠ a ∧ g ≠ b then v.countVH node (v.closed node a g b) s else pure s) ls s
          else pure s) ls s) ls 0
        let q ← divE (s : ℚ) (d : ℚ)
        let q ← divE q ((ls.length : ℚ) - 2)
        pure (some q)
  else .error .assertionError

section weighted

variable {K : Type} [Field K] [LinearOrder K]

/-! ### Zhang and Horvath -/

/-- `max(map(lambda x:x[2],net.edges))` (cc.py 68, 106) for a monoplex network: `x[2]` is the weight. -/
def maxWeight (v : View α K) : Except Err K := do
  let es ← v.edges
  match es.map Prod.snd with
  | [] => .error .valueError
  | w :: ws => pure (ws.foldl max w)

/-- the body of the loops of `cc_zhang` and `gcc_zhang` (cc.py 73-77, 112-116). -/
def zhangPair (v : View α K) (n : List α) (s : K × K) (i j : List α) : Except Err (K × K) := do
  let ni ← v.num2 n i
  let nj ← v.num2 n j
  let ij ← v.num2 i j
  pure (if ij ≠ v.noEdge then s.1 + ni * nj * ij else s.1, s.2 + ni * nj)

/-- `cc_zhang` (cc.py 52-80), for monoplex networks. -/
def zhang (v : View α K) (n : List α) : Except Err (Option K) := do
  let maxw ← v.maxWeight
  let k ← v.itemDeg n
  if 2 ≤ k then
    let ns ← v.neighbors n
    let s ← forPairs (v.zhangPair n) ns (0, 0)
    let q ← divE s.1 s.2
    let q ← divE q maxw
    pure (some q)
  else pure none

/-- one node of `gcc_zhang` (cc.py 109-116). -/
def zhangStep (v : View α K) (s : K × K) (x : α) : Except Err (K × K) := do
  let k ← v.itemDeg [x]
  if 2 ≤ k then
    let ns ← v.neighbors [x]
    forPairs (v.zhangPair [x]) ns s
  else pure s

/-- `gcc_zhang` (cc.py 84-120), for monoplex networks. -/
def gccZhang (v : View α K) : Except Err (Option K) := do
  let maxw ← v.maxWeight
  let s ← forE v.zhangStep v.nodes (0, 0)
  if s.2 ≠ 0 then
    let q ← divE (s.1 / s.2) maxw
    pure (some q)
  else pure none

/-! ### Barrett et al. -/

/-- the body of the first loop of `cc_barrett` and `cc_barrett_optimized` (cc.py 167-171, 210-214). -/
def barrettPair (anet : View α K) (n : List α) (nom : K) (i j : List α) : Except Err K := do
  let ni ← anet.num2 n i
  let nj ← anet.num2 n j
  let ij ← anet.num2 i j
  pure (if ij ≠ anet.noEdge then nom + ni * nj * ij else nom)

/-- `m=0; for layer in layers: m+=max(net[i,h,layer],net[j,h,layer])` (cc.py 178-183, 218-220, 258-260). -/
def maxSum (net : View α K) (i j h : α) (layers : List α) : Except Err K :=
  forE (fun m l => do
    let x ← net.num [i, h, l]
    let y ← net.num [j, h, l]
    pure (m + max x y)) layers 0

/-- the single name of a monoplex node tuple. -/
def name1 : List α → Except Err α
  | [x] => .ok x
  | _ => .error .typeError

/-- the second loop of `cc_barrett` (cc.py 216-221). -/
def barrettDen (net anet : View α K) (node : α) (js : List (List α)) (layers : List α) : Except Err K :=
  forE (fun den jl => do
    let j ← name1 jl
    forE (fun den h => do
      let m ← net.maxSum node j h layers
      let a ← anet.num [node, j]
      pure (den + a * m)) anet.nodes den) js 0

/-- `cc_barrett` (cc.py 195-229). `anet` is the aggregated monoplex network. -/
def barrett (net anet : View α K) (node : α) : Except Err (Option K) := do
  let k ← anet.itemDeg [node]
  if 2 ≤ k then
    let js ← anet.neighbors [node]
    let nom ← forPairs (anet.barrettPair [node]) js 0
    let ls ← net.layers1
    let den ← barrettDen net anet node js ls
    pure (if den ≠ 0 then some (2 * nom / den) else none)
  else pure none

/-- `t2` of `cc_barrett_explicit` (cc.py 247-249). -/
def explicitT2 (net : View α K) (j h : α) (ls : List α) : Except Err K :=
  forE (fun t m => do
    let x ← net.num [j, h, m]
    pure (t + x)) ls 0

/-- `t1` of the first loop of `cc_barrett_explicit` (cc.py 245-250). -/
def explicitT1 (net : View α K) (i j h : α) (ls : List α) : Except Err K :=
  forE (fun t l => do
    let t2 ← net.explicitT2 j h ls
    let x ← net.num [i, h, l]
    pure (t + t2 * x)) ls 0

/-- one of the two triple loops of `cc_barrett_explicit` (cc.py 242-251, 253-261), with `t1` as a
parameter. -/
def explicitLoop (net : View α K) (i : α) (ls : List α) (t1 : α → α → Except Err K) : Except Err K :=
  forE (fun s j =>
    forE (fun s h =>
      forE (fun s k => do
        let t ← t1 j h
        let x ← net.num [i, j, k]
        pure (s + x * t)) ls s) net.nodes s) net.nodes 0

/-- `cc_barrett_explicit` (cc.py 231-268). -/
def barrettExplicit (net : View α K) (node : α) : Except Err (Option K) := do
  let ls ← net.layers1
  let nom ← net.explicitLoop node ls fun j h => net.explicitT1 node j h ls
  let den ← net.explicitLoop node ls fun j h => net.maxSum node j h ls
  pure (if den = 0 then none else some (nom / den))

/-! ### tensor contractions -/

/-- the six nested loops of the `gcc_contraction` functions (for example cc.py 1218-1224): nodes `a`,`b`,`e`,
layers `g`,`d`,`n`, adding `f a b e g d n` to the accumulator. -/
def loop6 (v : View α K) (ls : List α) (f : α → α → α → α → α → α → Except Err K) : Except Err K :=
  forE (fun s a => forE (fun s b => forE (fun s e =>
    forE (fun s g => forE (fun s d => forE (fun s n => do
      let x ← f a b e g d n
      pure (s + x)) ls s) ls s) ls s) v.nodes s) v.nodes s) v.nodes 0

/-- the four nested loops after them (cc.py 1234-1238, 1328-1332). -/
def loop4 (v : View α K) (ls : List α) (s : K) (f : α → α → α → α → Except Err K) : Except Err K :=
  forE (fun s a => forE (fun s b =>
    forE (fun s g => forE (fun s d => do
      let x ← f a b g d
      pure (s + x)) ls s) ls s) v.nodes s) v.nodes s

/-- product of two entries of the network. -/
def mul2 (v : View α K) (i j : List α) : Except Err K := do
  let x ← v.num i
  let y ← v.num j
  pure (x * y)

/-- product of three entries of the network. -/
def mul3 (v : View α K) (i j k : List α) : Except Err K := do
  let x ← v.num i
  let y ← v.num j
  let z ← v.num k
  pure (x * y * z)

/-- `if den!=0: return num/float(den) else: return None`. -/
def ratio (num den : K) : Option K := if den ≠ 0 then some (num / den) else none

/-- the numerator of `gcc_contraction_m`, `_m_ct` and `_m_full` (cc.py 1218-1224, 1248-1254, 1277-1283). -/
def numM (v : View α K) (ls : List α) : Except Err K :=
  v.loop6 ls fun a b e g d n => v.mul3 [a, b, g, d] [b, e, d, n] [e, a, n, g]

/-- the numerator of `gcc_contraction_o`, `_o_full` and `_o2` (cc.py 1307-1313, 1345-1351, 1374-1380). -/
def numO (v : View α K) (ls : List α) : Except Err K :=
  v.loop6 ls fun a b e g d n => v.mul3 [a, b, g, g] [b, e, d, d] [e, a, n, n]

/-- `gcc_contraction_m` (cc.py 1214-1243). -/
def contractionM (v : View α K) : Except Err (Option K) := do
  let ls ← v.layers1
  let num ← v.numM ls
  let den ← v.loop6 ls fun a b e g d n => v.mul2 [a, b, g, d] [b, e, d, n]
  let den ← v.loop4 ls den fun a b g d => do
    let x ← v.mul2 [a, b, g, d] [b, a, d, g]
    pure (-x)
  pure (ratio num den)

/-- `gcc_contraction_m_ct` (cc.py 1245-1271). The two additions of one round are one addition here. -/
def contractionMct (v : View α K) : Except Err (Option K) := do
  let ls ← v.layers1
  let num ← v.numM ls
  let den ← v.loop6 ls fun a b e g d n => do
    let x ← v.mul2 [a, b, g, d] [b, e, d, n]
    pure (if e = a ∧ n = g then x + x * (-1) else x)
  pure (ratio num den)

/-- `gcc_contraction_m_full` (cc.py 1274-1299). -/
def contractionMfull (v : View α K) : Except Err (Option K) := do
  let ls ← v.layers1
  let num ← v.numM ls
  let den ← v.loop6 ls fun a b e g d n =>
    if b ≠ e ∨ d ≠ n then v.mul2 [a, b, g, d] [e, a, n, g] else pure 0
  pure (ratio num den)

/-- `gcc_contraction_o` (cc.py 1303-1339). -/
def contractionO (v : View α K) : Except Err (Option K) := do
  let ls ← v.layers1
  let num ← v.numO ls
  let den ← v.loop6 ls fun a b e g d _ => v.mul2 [a, b, g, g] [b, e, d, d]
  let den ← v.loop4 ls den fun a b g d => do
    let x ← v.mul2 [a, b, g, g] [b, a, d, d]
    pure (-x)
  pure (ratio num den)

/-- `gcc_contraction_o_full` (cc.py 1341-1367). -/
def contractionOfull (v : View α K) : Except Err (Option K) := do
  let ls ← v.layers1
  let num ← v.numO ls
  let den ← v.loop6 ls fun a b e g _ n =>
    if b ≠ e then v.mul2 [a, b, g, g] [e, a, n, n] else pure 0
  pure (ratio num den)

/-- `gcc_contraction_o2` (cc.py 1371-1397). The two additions of one round are one addition here. -/
def contractionO2 (v : View α K) : Except Err (Option K) := do
  let ls ← v.layers1
  let num ← v.numO ls
  let den ← v.loop6 ls fun a b e g d _ => do
    let x ← v.mul2 [a, b, g, g] [b, e, d, d]
    pure (if e = a then x + x * (-1) else x)
  pure (ratio num den)

end weighted

end View

/-- `cc_barrat` (cc.py 136-155), for monoplex networks. -/
def MNet.barrat {α K : Type} [DecidableEq α] [Field K] [LinearOrder K] (m : MNet α K) (n : List α) :
    Except Err (Option K) := do
  let k ← m.view.itemDeg n
  if 2 ≤ k then
    let ns ← m.view.neighbors n
    let nom ← forPairs (fun (s : K) i j => do
      let ij ← m.view.num2 i j
      if ij ≠ m.view.noEdge then
        let ni ← m.view.num2 n i
        let nj ← m.view.num2 n j
        pure (s + (ni + nj))
      else pure s) ns 0
    let st ← m.str n none
    let q ← divE nom (((k - 1 : Int) : K) * st)
    pure (some q)
  else pure none

namespace MPlex

variable {α K : Type} [DecidableEq α] [IntNames α]

/-- one layer of `cc_sequence` (cc.py 275-283). -/
def seqStep [DecidableEq K] (node : α) (s : List Nat × List ℚ) (c : LKey α × MNet α K) :
    Except Err (List Nat × List ℚ) := do
  let k ← c.2.view.itemDeg [node]
  let t ← (if 2 ≤ k then do
    let ns ← c.2.view.neighbors [node]
    forPairs c.2.view.ccPair ns 0
    else pure 0)
  pure (s.1 ++ [t], s.2 ++ [((k * (k - 1) : Int) : ℚ) / 2])

/-- the pairs `(layer, net.A[layer])` for `layer in net.A` (net.py 824-856). -/
def intraNets [DecidableEq K] (p : MPlex α K) : List (LKey α × MNet α K) :=
  p.A.filterMap fun e => (p.child? e.1).map fun c => (e.1, c)

/-- `cc_sequence` (cc.py 271-284). -/
def ccSequence [DecidableEq K] (p : MPlex α K) (node : α) : Except Err (List Nat × List ℚ) :=
  forE (seqStep node) p.intraNets ([], [])

/-- `cc_layers_wavg` (cc.py 292-295). -/
def layersWavg [DecidableEq K] (p : MPlex α K) (node : α) : Except Err ℚ := do
  let s ← p.ccSequence node
  divE (s.1.sum : ℚ) s.2.sum

/-- `gcc_super_graph_no_couplings` (cc.py 297-302). -/
def superGraphNoCouplings [DecidableEq K] (p : MPlex α K) : Except Err (Option ℚ) := do
  let s ← forE (fun (s : Nat × ℚ) node => do
    let r ← p.ccSequence node
    pure (s.1 + r.1.sum, s.2 + r.2.sum)) (p.slices.headD []) (0, 0)
  pure (if s.2 ≠ 0 then some (s.1 / s.2) else none)

variable [Field K] [LinearOrder K]

/-- the layers looped over in `cc_barrett_optimized` (cc.py 177-180). -/
def optLayers (p : MPlex α K) (h : α) : Except Err (List α) :=
  if p.fic then p.view.layers1
  else
    match Dict.get p.nodeToLayers h with
    | none => .error .keyError
    | some ls => pure (ls.flatMap LKey.toList)

/-- the second loop of `cc_barrett_optimized` (cc.py 173-183). -/
def optDen (p : MPlex α K) (anet : View α K) (node : α) (js : List (List α)) : Except Err K :=
  forE (fun den jl => do
    let j ← View.name1 jl
    let jn ← anet.neighbors [j]
    forE (fun den hl => do
      let h ← View.name1 hl
      let ls ← p.optLayers h
      let m ← p.view.maxSum node j h ls
      let a ← anet.num [node, j]
      pure (den + a * m)) (toSet (js ++ jn)) den) js 0

/-- `cc_barrett_optimized` (cc.py 157-193) for a multiplex network with one aspect. -/
def barrettOpt (p : MPlex α K) (anet : View α K) (node : α) : Except Err (Option K) := do
  let k ← anet.itemDeg [node]
  if 2 ≤ k then
    let js ← anet.neighbors [node]
    let nom ← forPairs (anet.barrettPair [node]) js 0
    let den ← p.optDen anet node js
    pure (if den ≠ 0 then some (2 * nom / den) else none)
  else pure none

/-! ### Brodka et al., Criado et al. -/

/-- `neighborcount[neigh]=neighborcount.get(neigh,0)+1` over `net.A[layer][node].iter_total()`
(cc.py 1455-1459). -/
def brodkaCount (p : MPlex α K) (node : α) (D : Dict α Nat) (layer : α) : Except Err (Dict α Nat) :=
  match p.child? (.el layer) with
  | none => .error .keyError
  | some c => do
    let ns ← c.view.neighbors [node]
    forE (fun D x => do
      let y ← View.name1 x
      pure (Dict.set D y ((Dict.get D y).getD 0 + 1))) ns D

/-- the thresholded neighbourhood computed from the layers (cc.py 1454-1465). -/
def brodkaNeigh (p : MPlex α K) (node : α) (ls : List α) (threshold : Nat) : Except Err (List α) := do
  let D ← forE (p.brodkaCount node) ls []
  pure ((Dict.keys D).filter fun x => decide (threshold ≤ (Dict.get D x).getD 0))

/-- `lcc_brodka` with `anet=None` (cc.py 1400-1498). `threshold='all'` is the number of layers. -/
def brodka (p : MPlex α K) (node : α) (threshold : Option Nat) : Except Err K := do
  if p.aspects = 1 then
    let ls ← p.view.layers1
    let th ← p.brodkaNeigh node ls (threshold.getD ls.length)
    if th.length = 0 then pure 0
    else
      let s ← forE (fun s l => forE (fun s x => forE (fun s h => do
        let a ← p.view.num [h, x, l]
        let b ← p.view.num [x, h, l]
        pure (s + (a + b))) th s) th s) ls (0 : K)
      divE s (2 * (th.length : K) * (ls.length : K))
  else .error .assertionError

/-- `lcc_brodka` with `anet` given, for an undirected network (cc.py 1467-1470, 1482-1486). -/
def brodkaAgg (p : MPlex α K) (anet : View α K) (node : α) (threshold : Option Nat) : Except Err K := do
  if p.aspects = 1 then
    let ls ← p.view.layers1
    let ns ← anet.neighbors [node]
    let th ← forE (fun (th : List α) x => do
      let y ← View.name1 x
      let w ← anet.num [node, y]
      pure (if ((threshold.getD ls.length : Nat) : K) ≤ w then th ++ [y] else th)) ns []
    if th.length = 0 then pure 0
    else
      let s ← forE (fun s x => forE (fun s h => do
        let a ← anet.num [h, x]
        let b ← anet.num [x, h]
        pure (s + (a + b))) th s) th (0 : K)
      divE s (2 * (th.length : K) * (ls.length : K))
  else .error .assertionError

/-- the set `nu` of `lcc_criado` without `anet` (cc.py 1687-1691). -/
def criadoNeigh (p : MPlex α K) (node : α) (ls : List α) : Except Err (List (List α)) :=
  forE (fun nu a =>
    match p.child? (.el a) with
    | none => .error .keyError
    | some c => do
      let ns ← c.view.neighbors [node]
      pure (ns.foldl sadd nu)) ls []

/-- one layer of `lcc_criado` (cc.py 1695-1701). The nodes of the layer are the nodes of `net.A[alpha]`. -/
def criadoStep (p : MPlex α K) (nu : List (List α)) (s : Nat × ℚ) (a : α) : Except Err (Nat × ℚ) :=
  match p.child? (.el a) with
  | none => .error .keyError
  | some c => do
    let na := nu.filter fun x => decide (x ∈ (c.slices.headD []).map fun y => [y])
    let t ← forE (fun t x => do
      let ns ← c.view.neighbors x
      pure (t + (ns.filter fun y => decide (y ∈ na)).length)) na s.1
    pure (t, s.2 + (na.length : ℚ) * ((na.length : ℚ) - 1))

/-- `lcc_criado` (cc.py 1649-1706); `nu` comes from the layers or from the aggregated network. -/
def criado (p : MPlex α K) (anet : Option (View α K)) (node : α) : Except Err (Option ℚ) := do
  let ls ← p.view.layers1
  let nu ← (match anet with
    | none => p.criadoNeigh node ls
    | some an => an.neighbors [node])
  let s ← forE (p.criadoStep nu) ls (0, 0)
  pure (if s.2 = 0 then none else some (s.1 / s.2))

end MPlex

end Pymnet
