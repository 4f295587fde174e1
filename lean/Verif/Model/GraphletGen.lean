import Verif.Model.Graphlets
import Verif.Model.PlexTransforms

/-!
Model of `graphlets` (`/repo/pymnet/graphlets/graphlets.py` 7-86): the generation of all small multiplex networks.

Node names are the integers `0,1,...`, given by an embedding `idx`. The canonical form `canon` of the isomorphism backend
and `str` (graphlets.py 50, 76), applied to a complete invariant, are parameters. `cs` are the couplings after
normalisation by the constructor.
-/

namespace Pymnet

open Py

variable {α W β σ : Type} [DecidableEq α] [DecidableEq W] [Zero W] [One W] [IntNames α] [LinearOrder α] [DecidableEq σ]

/-- `invariants` and the list of the networks of the current size. -/
structure GenState (α W σ : Type) where
  invariants : Dict σ (Nat × Nat)
  found : List (MPlex α W)

/-- `str(get_complete_invariant(net,...))` (graphlets.py 49-50, 75-76). -/
def MPlex.invariantKey (canon : CGraph → β) (str : List (List α × Nat) × β → σ) (allowed : Option (List Nat))
    (p : MPlex α W) : Except Err σ :=
  match completeInvariant canon p.view allowed with
  | .error e => .error e
  | .ok ci => .ok (str ci)

/-- a network is kept if its invariant is new (graphlets.py 49-53, 75-79). -/
def keepNew (canon : CGraph → β) (str : List (List α × Nat) × β → σ) (allowed : Option (List Nat)) (size : Nat)
    (st : GenState α W σ) (p : MPlex α W) : Except Err (GenState α W σ) :=
  match p.invariantKey canon str allowed with
  | .error e => .error e
  | .ok key =>
    if Dict.has st.invariants key then .ok st
    else .ok ⟨Dict.set st.invariants key (size, st.found.length), st.found ++ [p]⟩

/-- the calls `net.add_layer(layer)` (graphlets.py 46-47, 72-73). -/
def addLayersP (layers : List α) (p : MPlex α W) : Except Err (MPlex α W) :=
  forE (fun (p : MPlex α W) x => (p.addLayer x 1).toExcept) layers p

/-- a network with two nodes (graphlets.py 42-47). -/
def pairNet (cs : List (Coupling α W)) (idx : Nat → α) (netLayers layerComb : List α) : Except Err (MPlex α W) :=
  match forE (fun (p : MPlex α W) x => (p.setItem [idx 0, idx 1, x] 1).toExcept) layerComb (MPlex.init cs false 0 true) with
  | .error e => .error e
  | .ok p => addLayersP netLayers p

/-- the networks with two nodes (graphlets.py 38-55). -/
def pairNets (canon : CGraph → β) (str : List (List α × Nat) × β → σ) (allowed : Option (List Nat))
    (cs : List (Coupling α W)) (idx : Nat → α) (layers : List α) (nl : Nat) : Except Err (GenState α W σ) :=
  forE (fun st netLayers =>
    forE (fun st layerComb =>
      match pairNet cs idx netLayers layerComb with
      | .error e => .error e
      | .ok p => keepNew canon str allowed 2 st p) (layerCombinations netLayers) st) (combinations layers nl) ⟨[], []⟩

/-- a network extended by the node `i`, linked to the nodes `nodeComb` on the layers `layerCombs` (graphlets.py 66-73). -/
def extendNet (idx : Nat → α) (i : Nat) (net : MPlex α W) (netLayers : List α) (nodeComb : List Nat)
    (layerCombs : List (List α)) : Except Err (MPlex α W) :=
  match net.subnet [some (net.slices.headD []), some netLayers] false with
  | .error e => .error e
  | .ok p =>
    match forE (fun (p : MPlex α W) (u : Nat × List α) =>
        forE (fun (p : MPlex α W) x => (p.setItem [idx u.1, idx i, x] 1).toExcept) u.2 p) (nodeComb.zip layerCombs) p with
    | .error e => .error e
    | .ok p => addLayersP netLayers p

/-- the extensions of one network (graphlets.py 57-79). -/
def extensions (canon : CGraph → β) (str : List (List α × Nat) × β → σ) (allowed : Option (List Nat)) (idx : Nat → α) (i : Nat)
    (st : GenState α W σ) (net : MPlex α W) : Except Err (GenState α W σ) :=
  let netLayers := pySorted (net.slices.getD 1 [])
  forE (fun st nn =>
    forE (fun st nodeComb =>
      forE (fun st layerCombs =>
        match extendNet idx i net netLayers nodeComb layerCombs with
        | .error e => .error e
        | .ok p => keepNew canon str allowed (i + 1) st p)
        (product (List.replicate nn (layerCombinations netLayers))) st)
      (combinations (List.range i) nn) st) (List.range' 1 i) st

/-- one pass of the loop over the sizes (graphlets.py 56-81). -/
def nextSize (canon : CGraph → β) (str : List (List α × Nat) × β → σ) (allowed : Option (List Nat)) (idx : Nat → α)
    (st : Dict Nat (List (MPlex α W)) × Dict σ (Nat × Nat)) (i : Nat) :
    Except Err (Dict Nat (List (MPlex α W)) × Dict σ (Nat × Nat)) :=
  match Dict.get st.1 i with
  | none => .error .keyError
  | some nets =>
    match forE (extensions canon str allowed idx i) nets ⟨st.2, []⟩ with
    | .error e => .error e
    | .ok g => .ok (Dict.set st.1 (i + 1) g.found, g.invariants)

/-- `graphlets` (graphlets.py 7-86); `nl = none` is the default. A negative `n_l` (a `ValueError` of `combinations`) is
not modelled. -/
def graphlets (canon : CGraph → β) (str : List (List α × Nat) × β → σ) (allowed : Option (List Nat))
    (cs : List (Coupling α W)) (idx : Nat → α) (n : Nat) (layers : List α) (nl : Option Nat) :
    Except Err (Dict Nat (List (MPlex α W)) × Dict σ (Nat × Nat)) :=
  match pairNets canon str allowed cs idx layers (nl.getD layers.length) with
  | .error e => .error e
  | .ok g => forE (nextSize canon str allowed idx) (List.range' 2 (n - 2)) (Dict.set [] 2 g.found, g.invariants)

end Pymnet
