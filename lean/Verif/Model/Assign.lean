import Verif.Model.PlexTransforms

/-!
Model of `net.A[layer]=val` (`/repo/pymnet/net.py` 834-843), the replacement of an intra-layer network of a `MultiplexNetwork`.
-/

namespace Pymnet

open Py

variable {α W : Type} [DecidableEq α] [DecidableEq W]

/-- `MultiplexIntraNetDict.__setitem__` (net.py 834-843): `net.A[L]=val` for a general network `val` (the test of its type is not
modelled). The layer is emptied and `val` is copied into it by `subnet(val,val,newNet=self[key])` (transforms.py 120-233).
Simplification: if the copying raised, the model would not contain what had been copied before; `C113` shows it does not raise. -/
def MPlex.assignA [Zero W] (p : MPlex α W) (L : LKey α) (val : MNet α W) : Outcome (MPlex α W) :=
  if val.aspects ≠ 0 then (p, some .assertionError)
  else
    match Dict.get p.A L with
    | none => (p, some .exception)
    | some _ =>
      match MPlex.subnetA val.view (val.slices.headD []) L (p.addEmpty L) with
      | .error e => (p.addEmpty L, some e)
      | .ok q => (q, none)

end Pymnet
