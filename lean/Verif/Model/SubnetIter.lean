import Verif.Model.PlexTransforms
import Verif.Model.Clustering

/-!
Model of `/repo/pymnet/transforms.py`: `subnet_iter` (491-566).

The iterator is modelled by the list of networks it yields, or the exception that ends it. Sets are iterated in the order of the
lists that model them. `remove_elayers` is a list of natural numbers (the code checks that they are integers).
-/

namespace Pymnet

open Py

variable {α W : Type} [DecidableEq α] [DecidableEq W]

/-- `all_combinations(thelist)` (transforms.py 531-536) of an iterable whose `len` is `n`. -/
def allCombinations {γ : Type} (n : Nat) (l : List γ) : List (List γ) := (List.range (n + 1)).flatMap (combinations l)

/-- `all_nonzero_combinations(thelist)` (transforms.py 524-529). -/
def allNonzeroCombinations {γ : Type} (l : List γ) : List (List γ) :=
  (List.range l.length).flatMap fun i => combinations l (i + 1)

/-- `itertools.product(*combinations_args)` (transforms.py 538-545). -/
def iterChoices (slices : List (List α)) (remove : List Nat) : List (List (List α)) :=
  product (slices.mapIdx fun a s => if a ∈ remove then allNonzeroCombinations s else [s])

/-- `newnet[edge[:-1]]=subnet_with_edges[edge[:-1]]` (transforms.py 560) of a general network. -/
def setFrom (sub : MNet α W) (new : MNet α W) (edge : List α × W) : Except Err (MNet α W) :=
  match sub.view.readItem edge.1 with
  | .error e => .error e
  | .ok it =>
    match it.num with
    | .error e => .error e
    | .ok w => (new.setItem edge.1 w).toExcept

/-- the networks yielded for one choice of elementary layers (transforms.py 545-563) of a general network: the edges are those
of `net`. -/
def MNet.iterChoice (m : MNet α W) (removeEdges : Bool) (nl : List (List α)) : Except Err (List (MNet α W)) :=
  match m.subnet (nl.map some) false with
  | .error e => .error e
  | .ok sub =>
    if removeEdges then
      match m.view.edgesLen with
      | .error e => .error e
      | .ok n =>
        match m.view.edges with
        | .error e => .error e
        | .ok edges =>
          View.collect (fun chosen =>
            match sub.subnet (nl.map some) true with
            | .error e => .error e
            | .ok new =>
              match forE (setFrom sub) chosen new with
              | .error e => .error e
              | .ok new => .ok [new]) (allCombinations n.toNat edges)
    else .ok [sub]

/-- `subnet_iter(net,remove_elayers,remove_edges)` (transforms.py 491-566) of a `MultilayerNetwork`. -/
def MNet.subnetIter (m : MNet α W) (remove : List Nat) (removeEdges : Bool) : Except Err (List (MNet α W)) :=
  if remove.all fun a => decide (a ≤ m.aspects) then View.collect (m.iterChoice removeEdges) (iterChoices m.slices remove)
  else .error .assertionError

/-- `newnet[edge[:-1]]=subnet_with_edges[edge[:-1]]` (transforms.py 560) of a multiplex network. -/
def setFromP [Zero W] [IntNames α] (sub : MPlex α W) (new : MPlex α W) (edge : List α × W) : Except Err (MPlex α W) :=
  match sub.view.readItem edge.1 with
  | .error e => .error e
  | .ok it =>
    match it.num with
    | .error e => .error e
    | .ok w => (new.setItem edge.1 w).toExcept

/-- the networks yielded for one choice of elementary layers (transforms.py 545-563) of a multiplex network. The edges are those of
the sub-network; `subnet_with_edges.couplings` is assigned its own value, so the coupling edges are among them. -/
def MPlex.iterChoice [Zero W] [IntNames α] (p : MPlex α W) (removeEdges : Bool) (nl : List (List α)) :
    Except Err (List (MPlex α W)) :=
  match p.subnet (nl.map some) false with
  | .error e => .error e
  | .ok sub =>
    if removeEdges then
      match sub.view.edges with
      | .error e => .error e
      | .ok edges =>
        View.collect (fun chosen =>
          match sub.subnet (nl.map some) true with
          | .error e => .error e
          | .ok new =>
            match forE (setFromP sub) chosen new with
            | .error e => .error e
            | .ok new => .ok [new]) (allCombinations edges.length edges)
    else .ok [sub]

/-- `subnet_iter(net,remove_elayers,remove_edges)` (transforms.py 491-566) of a `MultiplexNetwork`. -/
def MPlex.subnetIter [Zero W] [IntNames α] (p : MPlex α W) (remove : List Nat) (removeEdges : Bool) : Except Err (List (MPlex α W)) :=
  if remove.all fun a => decide (a ≤ p.aspects) then View.collect (p.iterChoice removeEdges) (iterChoices p.slices remove)
  else .error .assertionError

end Pymnet
