import Verif.Model.Net

/-!
Small specification of the observable behaviour of a general multilayer network, computed from the
history of calls alone. Nothing here looks at the model's state.
-/

namespace Pymnet.Spec

open Pymnet

variable {α W : Type}

/-- `(i,s1,..,sd)`, `(j,r1,..,rd)` ↦ `(i,j,s1,r1,..,sd,rd)`. -/
def link (u v : List α) : List α := (u.zip v).flatMap fun p => [p.1, p.2]

/-- The index tuple `item` addresses the link from node-layer `u` to node-layer `v` in a network with
the given number of aspects: either it is the full form `(i,j,s1,r1,..)`, or all layers agree and it is
the short form `(i,j,s1,..,sd)`. -/
def Addresses (aspects : Nat) (item u v : List α) : Prop :=
  u.length = aspects + 1 ∧ v.length = aspects + 1 ∧
    (item = link u v ∨ ∃ i j s, u = i :: s ∧ v = j :: s ∧ item = i :: j :: s)

open Classical in
/-- The value written to the link from `u` to `v` by a call, if the call writes it.
In an undirected network both orientations are the same link. -/
noncomputable def written (aspects : Nat) (directed : Bool) (u v : List α) : Op α W → Option W
  | .setItem item w =>
    if Addresses aspects item u v ∨ (directed = false ∧ Addresses aspects item v u)
    then some w else none
  | _ => none

/-- What a link must read after a history: the value of the last call writing it, else `noEdge`. -/
noncomputable def read (aspects : Nat) (directed : Bool) (noEdge : W) (ops : List (Op α W)) (u v : List α) : W :=
  ops.foldl (fun cur op => (written aspects directed u v op).getD cur) noEdge

/-- A call names node `n`. -/
def NamesNode (aspects : Nat) (n : α) : Op α W → Prop
  | .addNode x _ => x = n
  | .addLayer x a => a = 0 ∧ x = n
  | .setItem item _ => ∃ u v, Addresses aspects item u v ∧ (u.head? = some n ∨ v.head? = some n)

/-- A call names elementary layer `x` of aspect `a ≥ 1`. In a node-aligned network the layer argument
of `add_node` is ignored; a layer argument of the wrong kind (bare/tuple) is rejected. -/
def NamesLayer (aspects : Nat) (aligned : Bool) (a : Nat) (x : α) : Op α W → Prop
  | .addNode _ none => False
  | .addNode _ (some (.el l)) => aligned = false ∧ aspects = 1 ∧ a = 1 ∧ l = x
  | .addNode _ (some (.tup l)) => aligned = false ∧ 2 ≤ aspects ∧ a ≤ aspects ∧ l[a - 1]? = some x
  | .addLayer l b => a ≤ aspects ∧ b = a ∧ l = x
  | .setItem item _ => ∃ u v, Addresses aspects item u v ∧ (u[a]? = some x ∨ v[a]? = some x)

/-- A call puts node `n` on layer `L` of a non-node-aligned network. -/
def NamesNodeLayer (aspects : Nat) (nl : List α) : Op α W → Prop
  | .addNode n (some (.el l)) => aspects = 1 ∧ nl = [n, l]
  | .addNode n (some (.tup l)) => 2 ≤ aspects ∧ l.length = aspects ∧ nl = n :: l
  | .setItem item _ => ∃ u v, Addresses aspects item u v ∧ (nl = u ∨ nl = v)
  | _ => False

/-- A node-layer agrees with a restriction: every restricted index has the required name. -/
def Matches (dims : Dims α) (n : List α) : Prop :=
  ∀ (i : Nat) (a : α), dims[i]? = some (some a) → n[i]? = some a

/-- The `k`-th call of a directed history deletes an existing link `u → x`, `u ≠ x`, at a moment when
there is no link `x → u`. -/
def DeletesOneWay (aspects : Nat) (noEdge : W) (ops : List (Op α W)) (x : List α) (k : Nat) : Prop :=
  ∃ u op, u ≠ x ∧ ops[k]? = some op ∧ written aspects true u x op = some noEdge ∧
    read aspects true noEdge (ops.take k) u x ≠ noEdge ∧
    read aspects true noEdge (ops.take k) x u = noEdge

end Pymnet.Spec
