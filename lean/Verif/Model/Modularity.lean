import Verif.Model.Transforms
import Mathlib.Algebra.Field.Defs

/-! `ModularityMultilayerNetworkView` (net.py 1332-1362). -/

namespace Pymnet

open Py

variable {α W : Type} [DecidableEq α] [DecidableEq W]

/-- A `ModularityMultilayerNetworkView` (net.py 1333-1350): the network, its `str` method, `gamma`, and the precalculated numbers `m` (a
dictionary from layers) and `u`. Numbers are exact. -/
structure ModView (α W : Type) where
  net : View α W
  str : List α → Option (Dims α) → Except Err W
  gamma : W
  m : Dict (List α) W
  u : W

/-- `mnet[(node,)+s][(COLON,)+s].str()` (net.py 1344, 1357, 1358). Without aspects, `MultilayerNode.__getitem__` wraps the tuple `(COLON,)`
into another one, so the weight of a link to a node named `(COLON,)` is read. That is a number, which has no method `str` (or the tuple
cannot be hashed, in Python versions before 3.12: a `TypeError`). -/
def sliceStr (v : View α W) (str : List α → Option (Dims α) → Except Err W) (node : α) (s : List α) : Except Err W :=
  if v.aspects = 0 then .error .attributeError
  else
    match v.getItem ((node :: s).map .val) with
    | .error e => .error e
    | .ok (.weight _) => .error .typeError
    | .ok (.node n _) =>
      match v.nodeGet n (.colon :: s.map .val) with
      | .error e => .error e
      | .ok (.weight _) => .error .attributeError
      | .ok (.node n ds) => str n ds

/-- `self.m[s]=self.m.get(s,0)+...` (net.py 1344). -/
def modNode (v : View α W) (str : List α → Option (Dims α) → Except Err W) [Zero W] [Add W] (s : List α) (m : Dict (List α) W) (node : α) :
    Except Err (Dict (List α) W) :=
  match sliceStr v str node s with
  | .error e => .error e
  | .ok k => .ok (Dict.set m s ((Dict.get m s).getD 0 + k))

/-- one layer (net.py 1343-1345). -/
def modSlice [Field W] (v : View α W) (str : List α → Option (Dims α) → Except Err W) (m : Dict (List α) W) (s : List α) :
    Except Err (Dict (List α) W) :=
  match forE (modNode v str s) (v.slices.headD []) m with
  | .error e => .error e
  | .ok m =>
    match Dict.get m s with
    | none => .error .keyError
    | some x => .ok (Dict.set m s (x / 2))

/-- `self.u+=mnet[i][j]` (net.py 1349). Without aspects this is not reached. -/
def modPair [Add W] (v : View α W) (u : W) (ij : List α × List α) : Except Err W :=
  match v.getItem (ij.1.map .val) with
  | .error e => .error e
  | .ok (.weight _) => .error .typeError
  | .ok (.node n _) =>
    match v.nodeGet n (ij.2.map .val) with
    | .error e => .error e
    | .ok (.weight w) => .ok (u + w)
    | .ok (.node _ _) => .error .typeError

/-- `ModularityMultilayerNetworkView(mnet,gamma)` (net.py 1333-1350). The attribute `oneper2u` is not modelled, except that computing it divides
by `u`. -/
def modInit [Field W] (v : View α W) (str : List α → Option (Dims α) → Except Err W) (gamma : W) : Except Err (ModView α W) :=
  match forE (modSlice v str) (product (v.slices.drop 1)) [] with
  | .error e => .error e
  | .ok m =>
    match forE (modPair v) ((product v.slices).flatMap fun i => (product v.slices).map fun j => (i, j)) 0 with
    | .error e => .error e
    | .ok u => if u = 0 then .error .zeroDivisionError else .ok ⟨v, str, gamma, m, u⟩

/-- `_get_link` (net.py 1352-1362). -/
def ModView.getLink [Field W] (V : ModView α W) (item : List α) : Except Err W :=
  match V.net.readItem item with
  | .error e => .error e
  | .ok (.node _ _) => .error .typeError
  | .ok (.weight v) =>
    if evens (item.drop 2) = odds (item.drop 2) then
      match item with
      | i :: j :: _ =>
        match sliceStr V.net V.str i (evens (item.drop 2)) with
        | .error e => .error e
        | .ok kis =>
          match sliceStr V.net V.str j (evens (item.drop 2)) with
          | .error e => .error e
          | .ok kjs =>
            match Dict.get V.m (evens (item.drop 2)) with
            | none => .error .keyError
            | some ms => if 2 * ms = 0 then .error .zeroDivisionError else .ok (v - V.gamma * kis * kjs / (2 * ms))
      | _ => .error .indexError
    else .ok v

/-- `view[item]`: `__getitem__` is inherited (net.py 454-515) and uses only the number of aspects and `_get_link`. -/
def ModView.read [Field W] (V : ModView α W) (item : List α) : Except Err (Item α W) :=
  ({ V.net with getLink := V.getLink } : View α W).readItem item

end Pymnet
