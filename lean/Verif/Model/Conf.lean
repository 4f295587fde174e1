import Verif.Model.Models
import Verif.Model.Diagnostics

/-!
Model of the configuration models of `/repo/pymnet/models.py`: `single_layer_conf`, `conf`, `conf_overlaps`.

As in Model/Models, random outcomes are arguments and are checked; `Stop.more` says that the call has not returned after
the given outcomes. The list `stubs` has an even length once the first assertion has passed, and the code uses it in
pairs `stubs[2*s],stubs[2*s+1]` from then on: the model keeps the list of these pairs, and the index `2*s` of the code is
`s` in the model. Names are linearly ordered (the code sorts pairs of names; a `TypeError` for names that cannot be
compared is not modelled).
-/

namespace Pymnet.Models

open Py

/-- `sorted([a,b])` -/
def srt {α : Type} [LinearOrder α] (a b : α) : α × α := if b < a then (b, a) else (a, b)

/-- the pairs `stubs[2*s],stubs[2*s+1]` for `s in range(int(len(stubs)/2))` -/
def toPairs {α : Type} : List α → List (α × α)
  | a :: b :: t => (a, b) :: toPairs t
  | _ => []

/-- Degrees: those of the nodes (`degstype="nodes"`), or the number of nodes for each degree
(`degstype="distribution"`). -/
inductive Degs (α : Type) where
  | nodes (d : Dict α Nat)
  | dist (d : Dict Nat Nat)

/-- The random outcomes of one call of `single_layer_conf`: what the two calls of `random.shuffle` make of the node indices
and of the stubs, the order in which the set `multiedges` is iterated, and the results of
`random.sample(xrange(int(len(stubs)/2)),2)`. `takenOrder` is the order of the set `takenedges` of `conf_overlaps`. -/
structure ConfRandom (α : Type) where
  nodeShuffle : List Nat
  shuffle : List α
  multiOrder : List (α × α)
  draws : List (Nat × Nat)
  takenOrder : List (α × α) := []

variable {α W σ τ : Type} [DecidableEq α] [DecidableEq W] [LinearOrder α] [Zero W] [One W]

/-- `net[i,j]==0 and ...` for a list of pairs; stops at the first one that is not 0. -/
def allZero (T : Target σ α W) (s : σ) : List (α × α) → Except Err Bool
  | [] => .ok true
  | q :: t =>
    match T.get s q.1 q.2 with
    | .error e => .error e
    | .ok w => if w = 0 then allZero T s t else .ok false

/-- `net[i,j]=w` for a list of pairs and weights, one after the other -/
def writes (T : Target σ α W) (l : List ((α × α) × W)) (s : σ) : Except Err σ :=
  forE (fun s x => T.set s x.1.1 x.1.2 x.2) l s

/-- `assert net[i,j]==1` for a list of pairs -/
def assertOnes (T : Target σ α W) (s : σ) : List (α × α) → Except Err Unit
  | [] => .ok ()
  | q :: t =>
    match T.get s q.1 q.2 with
    | .error e => .error e
    | .ok w => if w = 1 then assertOnes T s t else .error .assertionError

/-- `l[k]=l.get(k,[])+[s]` -/
def appendAt {κ : Type} [DecidableEq κ] (d : Dict κ (List Nat)) (k : κ) (s : Nat) : Dict κ (List Nat) :=
  Dict.set d k ((Dict.get d k).getD [] ++ [s])

/-- The loop `while repeat` (models.py 97-115, 128-151 and those of `conf_overlaps`): draws two different pairs until `body`
is content with them. `random.sample` raises `ValueError` if there are fewer than two pairs. -/
def retry (pairs : List (α × α)) (body : Nat × Nat → α × α → α × α → Except Err (Option τ)) :
    List (Nat × Nat) → Except Stop (τ × List (Nat × Nat))
  | [] => if pairs.length < 2 then .error (.raised .valueError) else .error .more
  | e :: draws =>
    if pairs.length < 2 then .error (.raised .valueError)
    else if e.1 = e.2 then .error .more
    else
      match pairs[e.1]?, pairs[e.2]? with
      | some p1, some p2 =>
        match body e p1 p2 with
        | .error e => .error (.raised e)
        | .ok (some t) => .ok (t, draws)
        | .ok none => retry pairs body draws
      | _, _ => .error .more

/-! ### single_layer_conf -/

/-- State of the loop that links the stubs. -/
structure Found (σ α : Type) where
  net : σ
  eti : Dict (α × α) (List Nat)
  multi : List (α × α)
  selfs : Dict α (List Nat)

/-- the body of the loop that links the stubs (models.py 81-92) -/
def confLink (T : Target σ α W) (f : Found σ α) (x : (α × α) × Nat) : Except Err (Found σ α) :=
  let q := srt x.1.1 x.1.2
  let eti := appendAt f.eti q x.2
  match T.get f.net q.1 q.2 with
  | .error e => .error e
  | .ok w =>
    let multi := if w ≠ 0 then sadd f.multi q else f.multi
    if q.1 = q.2 then .ok ⟨f.net, eti, multi, appendAt f.selfs q.1 x.2⟩
    else
      match T.set f.net q.1 q.2 1 with
      | .error e => .error e
      | .ok net => .ok ⟨net, eti, multi, f.selfs⟩

/-- State of the repairs: the network, the pairs of stubs, the positions of the multiple links, and the draws to come. -/
structure Work (σ α : Type) where
  net : σ
  pairs : List (α × α)
  eti : Dict (α × α) (List Nat)
  draws : List (Nat × Nat)

/-- the attempt to remove the self-link of `node` at position `si` with two pairs of stubs (models.py 99-115) -/
def confSelfTry (T : Target σ α W) (multi : List (α × α)) (net : σ) (pairs : List (α × α)) (node : α) (si : Nat)
    (e : Nat × Nat) (p1 p2 : α × α) : Except Err (Option (σ × List (α × α))) :=
  let q := srt p1.1 p1.2
  let r := srt p2.1 p2.2
  if [node, p1.1, p1.2, p2.1, p2.2].Nodup ∧ q ∉ multi ∧ r ∉ multi then
    match allZero T net [(node, q.1), (node, r.1), (q.2, r.2)] with
    | .error e => .error e
    | .ok false => .ok none
    | .ok true =>
      match writes T [(q, 0), (r, 0), ((node, q.1), 1), ((node, r.1), 1), ((q.2, r.2), 1)] net with
      | .error e => .error e
      | .ok net =>
        .ok (some (net, ((pairs.set si (srt q.2 r.2)).set e.1 (srt node q.1)).set e.2 (srt node r.1)))
  else .ok none

/-- the body of the loops over the self-links (models.py 94-115) -/
def confSelf (T : Target σ α W) (multi : List (α × α)) (node : α) (w : Work σ α) (si : Nat) : Except Stop (Work σ α) :=
  match retry w.pairs (confSelfTry T multi w.net w.pairs node si) w.draws with
  | .error e => .error e
  | .ok (r, draws) => .ok ⟨r.1, r.2, w.eti, draws⟩

/-- the attempt to remove two copies of the multiple link `m` with two pairs of stubs (models.py 130-151); `eti` are the
positions of the pairs. -/
def confMultiTry (T : Target σ α W) (multi : List (α × α)) (net : σ) (pairs : List (α × α))
    (eti : Dict (α × α) (List Nat)) (m : α × α) (e : Nat × Nat) (p1 p2 : α × α) :
    Except Err (Option ((σ × List (α × α)) × Dict (α × α) (List Nat))) :=
  let q := srt p1.1 p1.2
  let r := srt p2.1 p2.2
  if [m.1, m.2, p1.1, p1.2, p2.1, p2.2].Nodup ∧ q ∉ multi ∧ r ∉ multi then
    match allZero T net [(m.1, q.1), (m.2, q.2), (m.1, r.1), (m.2, r.2)] with
    | .error e => .error e
    | .ok false => .ok none
    | .ok true =>
      match Dict.get eti m with
      | none => .error .keyError
      | some is =>
        match (if is.length = 2 then writes T [(m, 0)] net else .ok net) with
        | .error e => .error e
        | .ok net =>
          match assertOnes T net [q, r] with
          | .error e => .error e
          | .ok _ =>
            match writes T [(q, 0), (r, 0), ((m.1, q.1), 1), ((m.2, q.2), 1), ((m.1, r.1), 1), ((m.2, r.2), 1)] net with
            | .error e => .error e
            | .ok net =>
              match is.getLast?, is.dropLast.getLast? with
              | some i, some j =>
                .ok (some ((net, (((pairs.set (min i j) (srt m.1 q.1)).set (max i j) (srt m.2 q.2)).set e.1
                  (srt m.1 r.1)).set e.2 (srt m.2 r.2)), Dict.set eti m is.dropLast.dropLast))
              | _, _ => .error .indexError
  else .ok none

/-- the body of the loop `for dummy in range(...)` (models.py 126-151) -/
def confMulti (T : Target σ α W) (multi : List (α × α)) (m : α × α) (w : Work σ α) (_dummy : Nat) :
    Except Stop (Work σ α) :=
  match retry w.pairs (confMultiTry T multi w.net w.pairs w.eti m) w.draws with
  | .error e => .error e
  | .ok (r, draws) => .ok ⟨r.1.1, r.1.2, r.2, draws⟩

/-- the body of the loop over the multiple links (models.py 125-151) -/
def confMultis (T : Target σ α W) (multi : List (α × α)) (w : Work σ α) (m : α × α) : Except Stop (Work σ α) :=
  match Dict.get w.eti m with
  | none => .error (.raised .keyError)
  | some is => forS (confMulti T multi m) (List.range (is.length / 2)) w

/-- `single_layer_conf` from the assertions on (models.py 76-151); the sum of the degrees and the number of nodes are those
the code has computed. -/
def confStubs (T : Target σ α W) (nstubs nodes : Nat) (stubs : List α) (rnd : ConfRandom α) (s : σ) : Except Stop σ :=
  if nstubs % 2 ≠ 0 then .error (.raised .assertionError)
  else if ¬ nstubs ≤ nodes * (nodes - 1) then .error (.raised .assertionError)
  else if ¬ rnd.shuffle.Perm stubs then .error .more
  else
    let pairs := toPairs rnd.shuffle
    match forE (confLink T) pairs.zipIdx ⟨s, [], [], []⟩ with
    | .error e => .error (.raised e)
    | .ok f =>
      match forS (fun w x => forS (confSelf T f.multi x.1) x.2 w) f.selfs ⟨f.net, pairs, f.eti, rnd.draws⟩ with
      | .error e => .error e
      | .ok w =>
        if ¬ rnd.multiOrder.Perm f.multi then .error .more
        else
          match forS (confMultis T f.multi) rnd.multiOrder w with
          | .error e => .error e
          | .ok w => .ok w.net

/-- the branch `degstype=="nodes"` (models.py 62-71): the stubs; nodes of degree 0 are added. -/
def stubsNodes (T : Target σ α W) (d : Dict α Nat) (s : σ) : Except Err (σ × List α) :=
  forE (fun st x =>
    let stubs := st.2 ++ List.replicate x.2 x.1
    if x.2 = 0 then
      match T.addNode st.1 x.1 with
      | .error e => .error e
      | .ok s => .ok (s, stubs)
    else .ok (st.1, stubs)) d (s, [])

/-- the branch `degstype=="distribution"` (models.py 46-61) after the shuffle of the node indices; the third component is
the counter `node`. -/
def stubsDist (T : Target σ α W) (ix : Nat → α) (indices : List Nat) (d : Dict Nat Nat) (s : σ) :
    Except Err ((σ × List α) × Nat) :=
  forE (fun st x =>
    if x.1 = 0 then
      forE (fun st _ =>
        match indices[st.2]? with
        | none => .error .indexError
        | some i =>
          match T.addNode st.1.1 (ix i) with
          | .error e => .error e
          | .ok s => .ok ((s, st.1.2), st.2 + 1)) (List.range x.2) st
    else
      forE (fun st _ =>
        match indices[st.2]? with
        | none => .error .indexError
        | some i => .ok ((st.1.1, st.1.2 ++ List.replicate x.1 (ix i)), st.2 + 1)) (List.range x.2) st) d ((s, []), 0)

/-- `single_layer_conf` (models.py 15-151). An invalid `degstype` is not modelled. -/
def singleLayerConf (T : Target σ α W) (ix : Nat → α) (degs : Degs α) (rnd : ConfRandom α) (s : σ) : Except Stop σ :=
  match degs with
  | .nodes d =>
    match stubsNodes T d s with
    | .error e => .error (.raised e)
    | .ok st => confStubs T (d.map Prod.snd).sum d.length st.2 rnd st.1
  | .dist d =>
    let nodes := (d.map Prod.snd).sum
    if ¬ rnd.nodeShuffle.Perm (List.range nodes) then .error .more
    else
      match stubsDist T ix rnd.nodeShuffle d s with
      | .error e => .error (.raised e)
      | .ok st => confStubs T (d.map fun x => x.1 * x.2).sum nodes st.1.2 rnd st.1.1

/-! ### conf -/

/-- The parameter `degs` of `conf`: degrees of one layer, degrees of named layers, or a list of degrees. -/
inductive ConfArg (α : Type) where
  | one (d : Degs α)
  | named (l : Dict α (Degs α))
  | list (l : List (Degs α))

/-- what the code compares to find out if the network is node-aligned (models.py 265-276): the number of nodes for
distributions, the set of nodes otherwise. `none` stands for different values. -/
def sameNodes (a b : Degs α) : Bool :=
  match a, b with
  | .dist a, .dist b => (a.map Prod.snd).sum = (b.map Prod.snd).sum
  | .nodes a, .nodes b => (∀ x ∈ a.map Prod.fst, x ∈ b.map Prod.fst) ∧ (∀ x ∈ b.map Prod.fst, x ∈ a.map Prod.fst)
  | _, _ => false

/-- `nodeAligned` (models.py 264-276): all neighbouring entries of the list have the same nodes. -/
def nodeAligned : List (Degs α) → Bool
  | a :: b :: t => sameNodes a b && nodeAligned (b :: t)
  | _ => true

/-- the loop over the layers (models.py 286-288) -/
def confLayers (ix : Nat → α) (rnd : α → ConfRandom α) (layers : List (α × Degs α)) (net : MPlex α W) :
    Except Stop (MPlex α W) :=
  forS (fun net l =>
    match (net.addLayer l.1 1).toExcept with
    | .error e => .error (.raised e)
    | .ok net => singleLayerConf (layerTarget l.1) ix l.2 (rnd l.1) net) layers net

/-- Is this dictionary empty? -/
def Degs.isEmpty : Degs α → Bool
  | .nodes d => List.isEmpty d
  | .dist d => List.isEmpty d

/-- `conf` (models.py 203-290) of dictionaries or lists. In one call all entries are of the same `degstype`; the model does
not need this. `(k for k in degs).send(None)` raises `StopIteration` for an empty dictionary, here `.exception`. -/
def conf (ix : Nat → α) (degs : ConfArg α) (coupling : Coupling α W) (rnd : α → ConfRandom α) :
    Except Stop (Either α W) :=
  match degs with
  | .one d =>
    if d.isEmpty then .error (.raised .exception)
    else
      match singleLayerConf netTarget ix d (rnd (ix 0)) (MNet.init 0 0 false true) with
      | .error e => .error e
      | .ok m => .ok (.mono m)
  | .named l =>
    if List.isEmpty l then .error (.raised .exception)
    else
      match confLayers ix rnd l (MPlex.init [coupling] false 0 (nodeAligned (l.map Prod.snd))) with
      | .error e => .error e
      | .ok p => .ok (.plex p)
  | .list l =>
    match confLayers ix rnd ((List.range l.length).map ix |>.zip l) (MPlex.init [coupling] false 0 (nodeAligned l)) with
    | .error e => .error e
    | .ok p => .ok (.plex p)

/-- `for node in degs: d[node]=degs[node].deg()` (models.py 238-241 and 247-249): the degrees of the nodes of a network
without aspects. -/
def degsOf (v : View α W) : Except Err (Dict α Nat) :=
  forE (fun d n =>
    match v.itemDeg [n] with
    | .error e => .error e
    | .ok k => .ok (Dict.set d n k.toNat)) (v.slices.headD []) []

/-- `conf` of a `MultilayerNetwork` (models.py 245-250). The parameter `couplings` is not passed on. -/
def confOfNet (ix : Nat → α) (m : MNet α W) (rnd : α → ConfRandom α) : Except Stop (Either α W) :=
  if m.aspects ≠ 0 then .error (.raised .assertionError)
  else
    match degsOf m.view with
    | .error e => .error (.raised e)
    | .ok d => conf ix (.one (.nodes d)) (.categorical 1) rnd

/-- the body of the loop over the layers (models.py 237-241) -/
def noteLayer (p : MPlex α W) (d : Dict α (Degs α)) (L : LKey α) : Except Err (Dict α (Degs α)) :=
  match L with
  | .tup _ => .error .keyError
  | .el s =>
    match p.child? (.el s) with
    | none => .error .keyError
    | some c =>
      match degsOf c.view with
      | .error e => .error e
      | .ok dd => .ok (Dict.set d s (Degs.nodes dd))

/-- `conf` of a `MultiplexNetwork` (models.py 235-244). The parameter `couplings` is not passed on. -/
def confOfPlex (ix : Nat → α) (p : MPlex α W) (rnd : α → ConfRandom α) : Except Stop (Either α W) :=
  if p.aspects ≠ 1 then .error (.raised .assertionError)
  else
    match forE (noteLayer p) p.iterLayers [] with
    | .error e => .error (.raised e)
    | .ok d => conf ix (.named d) (.categorical 1) rnd

end Pymnet.Models
