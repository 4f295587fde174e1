import Verif.Model.Net
import Mathlib.Algebra.Ring.Defs

/-!
Model of `/repo/pymnet/visuals/drawassigners.py`: how `draw` chooses the properties of layers, nodes and edges. A property value is an element
of `V`, or Python's `None`; the constants `1.0` and so on do not occur. Not modelled: the modifier "colormap" (it calls matplotlib),
the rule "sourcedestweight", and the name of an object as a value other than through the function `name`. Node sizes are in
`Model/NodeSizes.lean`.
-/

namespace Pymnet

open Py

/-- The rules (drawassigners.py 14, 90, 110, 121, 139). -/
inductive RuleName
  | order | name | f | degree | layer | nodename | scaled | edgetype | edgeweight | unknown
  deriving DecidableEq, Repr

/-- The item "scaleby": a constant, or a rule (drawassigners.py 56-60). -/
inductive ScaleBy (V : Type)
  | const (v : V)
  | rule (r : RuleName)

/-- A rule dictionary that is not empty: the items "rule", "sequence", "f", "mapping", "scaleby", "intra", "inter", "scalecoeff" and "propscale",
and the items used by "mapping" and by "scaleby" with a rule. -/
structure PropRule (V : Type) where
  rule : Option RuleName
  sequence : Option (List V) := none
  f : Option (Option V → Option V) := none
  mapping : Bool := false
  scaleby : Option (ScaleBy V) := none
  intra : Option V := none
  inter : Option V := none
  entries : Dict V V := []
  scalecoeff : Option V := none
  propscale : Option V := none

/-- A `PropertyAssigner` (drawassigners.py 13-19): `rules` are the rules of its class, `lookup` its `_get_from_property_dict` and `special` the
rules its class adds to `get_by_rule` (`none` if the rule is not one of them). `propRule` is `none` for the empty dictionary. -/
structure Assigner (ι V : Type) where
  rules : List RuleName
  lookup : ι → Option V
  propRule : Option (PropRule V)
  default : Option V
  name : ι → V
  special : ι → PropRule V → RuleName → Option (Except Err (Option V))

section

variable {ι V : Type} [DecidableEq V]

/-- `self.propRule["sequence"][self.i%len(...)]` (drawassigners.py 42-47) for the new value `i` of the counter. -/
def orderValue (p : PropRule V) (i : Nat) : Except Err (Option V) :=
  match p.sequence with
  | none => .error .assertionError
  | some s =>
    match s[i % s.length]? with
    | none => .error .zeroDivisionError
    | some v => .ok (some v)

/-- the counter after `if hasattr(self,"i"): self.i+=1 else: self.i=0` (drawassigners.py 43-46); `none` if there is none yet. -/
def nextI : Option Nat → Nat
  | none => 0
  | some i => i + 1

/-- `get_by_rule` (drawassigners.py 40-49) after the rules of the class: the value and the counter. The assertion comes before the counter is
changed. -/
def Assigner.getByRule (a : Assigner ι V) (p : PropRule V) (item : ι) (r : RuleName) (i : Option Nat) : Except Err (Option V) × Option Nat :=
  match a.special item p r with
  | some v => (v, i)
  | none =>
    match r with
    | .order => (orderValue p (nextI i), if p.sequence.isSome then some (nextI i) else i)
    | .name => (.ok (some (a.name item)), i)
    | _ => (.ok none, i)

/-- the modifier "f" (drawassigners.py 52-53) -/
def modF (p : PropRule V) (v : Option V) : Option V :=
  match p.f with
  | none => v
  | some f => if p.rule ≠ some .f then f v else v

/-- the modifier "mapping" (drawassigners.py 54-55): `None` is not a key. -/
def modMapping (p : PropRule V) (v : Option V) : Except Err (Option V) :=
  if p.mapping then
    match v with
    | none => .error .keyError
    | some v =>
      match Dict.get p.entries v with
      | none => .error .keyError
      | some w => .ok (some w)
  else .ok v

/-- `item*c` -/
def timesV [Mul V] (v : Option V) (c : V) : Except Err (Option V) :=
  match v with
  | none => .error .typeError
  | some v => .ok (some (v * c))

/-- the modifier "scaleby" (drawassigners.py 56-60) -/
def Assigner.modScale [Mul V] (a : Assigner ι V) (p : PropRule V) (item : ι) (v : Option V) (i : Option Nat) : Except Err (Option V) × Option Nat :=
  match p.scaleby with
  | none => (.ok v, i)
  | some (.const c) => (timesV v c, i)
  | some (.rule r) =>
    match a.getByRule p item r i with
    | (.error e, i) => (.error e, i)
    | (.ok none, i) => (.error .keyError, i)
    | (.ok (some k), i) =>
      match Dict.get p.entries k with
      | none => (.error .keyError, i)
      | some c => (timesV v c, i)

/-- `apply_modify_rules` (drawassigners.py 51-66) -/
def Assigner.modify [Mul V] (a : Assigner ι V) (p : PropRule V) (item : ι) (v : Option V) (i : Option Nat) : Except Err (Option V) × Option Nat :=
  match modMapping p (modF p v) with
  | .error e => (.error e, i)
  | .ok v => a.modScale p item v i

/-- `__getitem__` (drawassigners.py 27-38): the value and the counter. -/
def Assigner.get [Mul V] (a : Assigner ι V) (item : ι) (i : Option Nat) : Except Err (Option V) × Option Nat :=
  match a.lookup item with
  | some v => (.ok (some v), i)
  | none =>
    match a.propRule with
    | none => (.ok a.default, i)
    | some p =>
      match p.rule with
      | none => (.error .assertionError, i)
      | some r =>
        if r ∈ a.rules then
          match a.getByRule p item r i with
          | (.error e, i) => (.error e, i)
          | (.ok v, i) => a.modify p item v i
        else (.error .exception, i)

/-- The values of a sequence of objects, in the order in which they are asked for. -/
def Assigner.getAll [Mul V] (a : Assigner ι V) : List ι → Option Nat → List (Except Err (Option V))
  | [], _ => []
  | x :: l, i => (a.get x i).1 :: a.getAll l (a.get x i).2

/-- `_get_from_property_dict` (drawassigners.py 21-25); a value `None` is the same as no value (29). -/
def lookupPlain [DecidableEq ι] (d : Dict ι (Option V)) (item : ι) : Option V :=
  match Dict.get d item with
  | some v => v
  | none => none

end

section

variable {α V : Type} [DecidableEq α] [DecidableEq V]

/-- `_get_from_property_dict` of edges (drawassigners.py 141-159): both directions are accepted in undirected networks. -/
def lookupEdge (directed : Bool) (d : Dict (List α × List α) (Option V)) (item : List α × List α) : Option V :=
  if directed then lookupPlain d item
  else
    match Dict.get d item with
    | some v => v
    | none => lookupPlain d (item.2, item.1)

/-- the rules of `EdgePropertyAssigner.get_by_rule` (drawassigners.py 161-176); `weight` is `self.net[item[0]][item[1]]`, `layerName` a layer as
a value and `interlayer` the string "interlayer". -/
def edgeSpecial (weight : List α → List α → Except Err V) (layerName : α → V) (interlayer : V) (item : List α × List α) (p : PropRule V) :
    RuleName → Option (Except Err (Option V))
  | .edgetype =>
    match p.intra, p.inter with
    | some v, some w => if item.1[1]? = item.2[1]? then some (.ok (some v)) else some (.ok (some w))
    | some v, none => if item.1[1]? = item.2[1]? then some (.ok (some v)) else some (.ok none)
    | none, some w => if item.1[1]? ≠ item.2[1]? then some (.ok (some w)) else some (.ok none)
    | none, none => some (.ok none)
  | .edgeweight =>
    match weight item.1 item.2 with
    | .error e => some (.error e)
    | .ok w => some (.ok (some w))
  | .layer =>
    if item.1[1]? = item.2[1]? then
      match item.1[1]? with
      | none => some (.error .indexError)
      | some l => some (.ok (some (layerName l)))
    else some (.ok (some interlayer))
  | _ => none

/-- An `EdgePropertyAssigner` (drawassigners.py 138-176). -/
def edgeAssigner (directed : Bool) (d : Dict (List α × List α) (Option V)) (p : Option (PropRule V)) (default : Option V)
    (weight : List α → List α → Except Err V) (layerName : α → V) (interlayer : V) (name : List α × List α → V) : Assigner (List α × List α) V :=
  ⟨[.order, .name, .f, .edgetype, .edgeweight, .layer], lookupEdge directed d, p, default, name, edgeSpecial weight layerName interlayer⟩

end

end Pymnet
