import Verif.Model.Assigners
import Mathlib.Algebra.Field.Defs

/-!
Model of the assigners of nodes of `/repo/pymnet/visuals/drawassigners.py` (89-134): `NodePropertyAssigner`, `NodeLabelAssigner` and
`NodeSizeAssigner`. Property values are elements of a field `V` (exact numbers), `layerName` and `name` are names as values, and
`math.sqrt` is a parameter.
-/

namespace Pymnet

open Py

section

variable {α W V : Type} [DecidableEq α] [DecidableEq V]

/-- the rules of `NodePropertyAssigner.get_by_rule` (drawassigners.py 91-96) -/
def nodeSpecial [IntCast V] (v : View α W) (layerName : α → V) (item : List α) : RuleName → Option (Except Err (Option V))
  | .degree =>
    match v.deg item none with
    | .error e => some (.error e)
    | .ok d => some (.ok (some (d : V)))
  | .layer =>
    match item[1]? with
    | none => some (.error .indexError)
    | some l => some (.ok (some (layerName l)))
  | _ => none

/-- A `NodePropertyAssigner` (drawassigners.py 89-96). -/
def nodeAssigner [IntCast V] (d : Dict (List α) (Option V)) (p : Option (PropRule V)) (default : Option V) (v : View α W) (layerName : α → V)
    (name : List α → V) : Assigner (List α) V :=
  ⟨[.order, .name, .f, .degree, .layer], lookupPlain d, p, default, name, fun item _ r => nodeSpecial v layerName item r⟩

/-- A `NodeLabelAssigner` (drawassigners.py 107-112); `nodeName` is the name of a node as a value. -/
def nodeLabelAssigner [IntCast V] (d : Dict (List α) (Option V)) (p : Option (PropRule V)) (default : Option V) (v : View α W) (layerName : α → V)
    (name : List α → V) (nodeName : α → V) : Assigner (List α) V :=
  ⟨[.order, .name, .f, .degree, .layer, .nodename], lookupPlain d, p, default, name, fun item _ r =>
    match r with
    | .nodename =>
      match item[0]? with
      | none => some (.error .indexError)
      | some n => some (.ok (some (nodeName n)))
    | _ => nodeSpecial v layerName item r⟩

variable [Field V]

/-- `float(math.sqrt(len(self.net)))` (drawassigners.py 123-124, 130-131) -/
def sqrtLen (sqrt : V → V) (v : View α W) : V := sqrt (((v.slices.headD []).length : Nat) : V)

/-- a division of Python numbers -/
def divV (a b : V) : Except Err V := if b = 0 then .error .zeroDivisionError else .ok (a / b)

/-- `NodeSizeAssigner` (drawassigners.py 117-134) without its `apply_modify_rules`: the rule "name" is removed and "scaled" is added. -/
def nodeSizeAssigner (sqrt : V → V) (d : Dict (List α) (Option V)) (p : Option (PropRule V)) (default : Option V) (v : View α W)
    (layerName : α → V) (name : List α → V) : Assigner (List α) V :=
  ⟨[.order, .f, .degree, .layer, .scaled], lookupPlain d, p, default, name, fun item p r =>
    match r with
    | .scaled =>
      match divV (match p.scalecoeff with | some c => c | none => 1) (sqrtLen sqrt v) with
      | .error e => some (.error e)
      | .ok x => some (.ok (some x))
    | _ => nodeSpecial v layerName item r⟩

/-- `NodeSizeAssigner.apply_modify_rules` (drawassigners.py 127-132): "propscale" comes before the other modifiers. -/
def propscaleV (sqrt : V → V) (v : View α W) (p : PropRule V) (x : Option V) : Except Err (Option V) :=
  match p.propscale with
  | none => .ok x
  | some c =>
    match timesV x c with
    | .error e => .error e
    | .ok none => .error .typeError
    | .ok (some y) =>
      match divV y (sqrtLen sqrt v) with
      | .error e => .error e
      | .ok z => .ok (some z)

/-- `NodeSizeAssigner.__getitem__` (drawassigners.py 27-38 with the overridden methods): the size of a node and the counter. -/
def nodeSize (sqrt : V → V) (d : Dict (List α) (Option V)) (p : Option (PropRule V)) (default : Option V) (v : View α W) (layerName : α → V)
    (name : List α → V) (item : List α) (i : Option Nat) : Except Err (Option V) × Option Nat :=
  let a := nodeSizeAssigner sqrt d p default v layerName name
  match a.lookup item with
  | some x => (.ok (some x), i)
  | none =>
    match a.propRule with
    | none => (.ok a.default, i)
    | some p =>
      match p.rule with
      | none => (.error .assertionError, i)
      | some r =>
        if r ∈ a.rules then
          match a.getByRule p item r i with
          | (.error e, i) => (.error e, i)
          | (.ok x, i) =>
            match propscaleV sqrt v p x with
            | .error e => (.error e, i)
            | .ok x => a.modify p item x i
        else (.error .exception, i)

end

end Pymnet
