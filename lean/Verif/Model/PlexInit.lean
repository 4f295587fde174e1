import Verif.Model.Plex

/-!
Model of the coupling argument of `MultiplexNetwork.__init__` of `/repo/pymnet/net.py` (925-967).
-/

namespace Pymnet

open Py

/-- The first element of a tuple given as a coupling: a string or something else. -/
inductive CoupHead
  | str (s : String)
  | other
  deriving DecidableEq

/-- A coupling as given by the caller: a tuple (of a first element and further elements, all of them numbers), the empty
tuple, a network, a string, `None` or something else. -/
inductive CoupArg (α W : Type)
  | tuple (head : CoupHead) (rest : List W)
  | emptyTuple
  | net (c : MNet α W)
  | str (s : String)
  | none
  | other

/-- The argument `couplings`: one coupling or a list of couplings. -/
inductive CoupsArg (α W : Type)
  | one (c : CoupArg α W)
  | list (cs : List (CoupArg α W))

variable {α W : Type} [DecidableEq α] [DecidableEq W]

/-- a tuple in `self.couplings` that starts with one of the three names; `w` is its second element, the only other one
that is ever read. -/
def namedCoupling (s : String) (w : Option W) (one : W) : Except Err (Coupling α W) :=
  if s = "categorical" then .ok (.categorical (w.getD one))
  else if s = "ordinal" then .ok (.ordinal (w.getD one))
  else if s = "none" then .ok (.uncoupled w)
  else .error .assertionError

/-- the body of the loop over the couplings (net.py 941-957); `one` is `1.0`. -/
def normCoupling (one : W) : CoupArg α W → Except Err (Coupling α W)
  | .tuple .other _ => .error .assertionError
  | .tuple (.str s) rest => namedCoupling s rest.head? one
  | .emptyTuple => .error .assertionError
  | .net c => if c.aspects = 0 then .ok (.net c) else .error .assertionError
  | .str s => namedCoupling s (some one) one
  | .none => .ok (.uncoupled none)
  | .other => .error .valueError

/-- the loop (net.py 940-957). -/
def normCouplings (one : W) : List (CoupArg α W) → Except Err (List (Coupling α W))
  | [] => .ok []
  | c :: cs => do
    let k ← normCoupling one c
    let ks ← normCouplings one cs
    pure (k :: ks)

/-- `MultiplexNetwork(couplings,directed,noEdge,fullyInterconnected)` (net.py 925-967): a single coupling is put in a
list (936-937), another object is a `ValueError` (959-960), as it is for an element of the list. -/
def newPlex (one : W) (couplings : CoupsArg α W) (directed : Bool) (noEdge : W) (fullyInterconnected : Bool) :
    Except Err (MPlex α W) := do
  let cs := match couplings with
    | .one c => [c]
    | .list cs => cs
  let ks ← normCouplings one cs
  pure (MPlex.init ks directed noEdge fullyInterconnected)

end Pymnet
