import Verif.Model.Net

/-! `FlatMultilayerNetworkView` (net.py 1294-1330). -/

namespace Pymnet

open Py

variable {α W : Type} [DecidableEq α] [DecidableEq W]

/-- A `FlatMultilayerNetworkView` (net.py 1301-1303): the network. `aspects` is always 0, and the constructor of the base class is not called,
so there are no attributes `directed`, `noEdge`, `fullyInterconnected` and `slices`. -/
structure FlatView (α W : Type) where
  mnet : View α W

/-- An index of the view: a name, or a tuple of names (a node-layer of the network). -/
abbrev FlatIdx (α : Type) := α ⊕ List α

/-- `_get_link` (net.py 1312-1315): the variable `a` is not defined, so computing the index of the network raises a `NameError` before the
network is read. -/
def FlatView.getLink (_ : FlatView α W) (_ : List (FlatIdx α)) : Except Err W := .error .nameError

/-- `fnet[item]`, with `item` the tuple of the indices, without colons: the inherited `__getitem__` (net.py 488-515) with `d = 1`. A single
tuple as an index is, in Python, the tuple of the indices. -/
def FlatView.read (V : FlatView α W) (item : List (FlatIdx α)) : Except Err (Item (FlatIdx α) W) :=
  if item.length = 1 then .ok (.node item none)
  else if item.length = 2 then
    match V.getLink item with
    | .error e => .error e
    | .ok w => .ok (.weight w)
  else .error .keyError

/-- `fnet[item]=val`: the inherited `__setitem__` (net.py 517-529). The view has no attribute `fullyInterconnected`, so `_set_link` (1317-1320)
is not reached. -/
def FlatView.set (V : FlatView α W) (item : List (FlatIdx α)) (_ : W) : Outcome (FlatView α W) :=
  if item.length = 2 then (V, some .attributeError) else (V, some .keyError)

/-- `fnet[u].deg()` (net.py 689-695 and 1322-1325): `NotImplemented` cannot be called. -/
def FlatView.deg (V : FlatView α W) (item : List (FlatIdx α)) : Except Err Int :=
  match V.read item with
  | .error e => .error e
  | .ok (.weight _) => .error .attributeError
  | .ok (.node _ _) => .error .typeError

end Pymnet
