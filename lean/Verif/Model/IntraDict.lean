import Verif.Model.Assign

/-!
Model of the mapping `net.A` of a multiplex network (`MultiplexIntraNetDict`, `/repo/pymnet/net.py` 824-856). It is a
`collections.abc.MutableMapping` that defines `__getitem__`, `__iter__`, `__len__`, `__setitem__` (`MPlex.assignA`) and `__delitem__`; the
methods `pop`, `popitem`, `clear`, `setdefault` and `update` are those that Python's `MutableMapping` makes of these.
-/

namespace Pymnet

open Py

variable {α W : Type} [DecidableEq α] [DecidableEq W]

/-- `net.A[L]` (net.py 828-829). -/
def MPlex.getA (p : MPlex α W) (L : LKey α) : Except Err (MNet α W) :=
  match p.child? L with
  | none => .error .keyError
  | some c => .ok c

/-- `list(net.A)` (net.py 830-831). -/
def MPlex.keysA (p : MPlex α W) : List (LKey α) := Dict.keys p.A

/-- `len(net.A)` (net.py 832-833). -/
def MPlex.lenA (p : MPlex α W) : Nat := p.A.length

/-- `del net.A[L]` (net.py 845-846): `pass`. -/
def MPlex.delA (p : MPlex α W) (_ : LKey α) : Outcome (MPlex α W) := (p, none)

/-- `net.A.pop(L)` and `net.A.pop(L,default)`: `MutableMapping.pop`, with `__getitem__` and `__delitem__` of net.py 828-829, 845-846. -/
def MPlex.popA (p : MPlex α W) (L : LKey α) (default : Option (MNet α W)) : Except Err (MNet α W × MPlex α W) :=
  match p.getA L with
  | .error _ =>
    match default with
    | none => .error .keyError
    | some d => .ok (d, p)
  | .ok c =>
    match p.delA L with
    | (q, none) => .ok (c, q)
    | (_, some e) => .error e

/-- `net.A.popitem()`: `MutableMapping.popitem`, with `__iter__`, `__getitem__` and `__delitem__` of net.py 828-831, 845-846. -/
def MPlex.popItemA (p : MPlex α W) : Except Err ((LKey α × MNet α W) × MPlex α W) :=
  match p.keysA with
  | [] => .error .keyError
  | L :: _ =>
    match p.getA L with
    | .error e => .error e
    | .ok c =>
      match p.delA L with
      | (q, none) => .ok ((L, c), q)
      | (_, some e) => .error e

/-- `net.A.clear()`: `MutableMapping.clear`, `popitem` until it raises `KeyError`, with the methods of net.py 828-831, 845-846. The network
after the call if it ends within `n` calls of `popitem`, `none` if it has not ended then. -/
def MPlex.clearA : Nat → MPlex α W → Option (Outcome (MPlex α W))
  | 0, _ => none
  | n + 1, p =>
    match p.popItemA with
    | .error .keyError => some (p, none)
    | .error e => some (p, some e)
    | .ok (_, q) => clearA n q

/-- `net.A.setdefault(L,default)`: `MutableMapping.setdefault`, with `__getitem__` and `__setitem__` of net.py 828-829, 835-843; what is
returned, and the network. -/
def MPlex.setDefaultA [Zero W] (p : MPlex α W) (L : LKey α) (default : MNet α W) : Except Err (MNet α W) × MPlex α W :=
  match p.getA L with
  | .ok c => (.ok c, p)
  | .error _ =>
    match p.assignA L default with
    | (q, none) => (.ok default, q)
    | (q, some e) => (.error e, q)

/-- `net.A.update(d)` for a dictionary `d` of general networks: `MutableMapping.update`, with `__setitem__` of net.py 835-843. -/
def MPlex.updateA [Zero W] : List (LKey α × MNet α W) → MPlex α W → Outcome (MPlex α W)
  | [], p => (p, none)
  | (L, v) :: t, p => (p.assignA L v).andThen (updateA t)

end Pymnet
