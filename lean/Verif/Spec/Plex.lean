import Verif.Spec.Net
import Verif.Model.Plex

/-!
Small specification of the observable behaviour of a multiplex network, computed from the history of
calls alone. Nothing here looks at the model's state.
-/

namespace Pymnet.Spec

open Pymnet

variable {α W : Type}

/-- The calls a multiplex network shares with a general multilayer network. -/
def general : POp α W → Option (Op α W)
  | .addNode n l => some (.addNode n l)
  | .addLayer x a => some (.addLayer x a)
  | .setItem item w => some (.setItem item w)
  | .intraAddNode _ _ => none
  | .intraSet _ _ _ _ => none

/-- Some call of the history satisfies `P`, given the calls before it. -/
def Happened (P : List (POp α W) → POp α W → Prop) (ops : List (POp α W)) : Prop :=
  ∃ past op rest, ops = past ++ op :: rest ∧ P past op

/-- A call names elementary layer `x` of aspect `a ≥ 1` (calls on `net.A[L]` name no layer). -/
def NamesLayerP (aspects : Nat) (aligned : Bool) (a : Nat) (x : α) (op : POp α W) : Prop :=
  ∃ o, general op = some o ∧ NamesLayer aspects aligned a x o

/-- `L` is a tuple of elementary layers all of which the history names. -/
def HasLayer (aspects : Nat) (aligned : Bool) (past : List (POp α W)) (L : LKey α) : Prop :=
  ∃ s : List α, L = .ofList s ∧ s.length = aspects ∧
    ∀ (k : Nat) (x : α), s[k]? = some x → ∃ op ∈ past, NamesLayerP aspects aligned (k + 1) x op

/-- A call names node `n`; calls on `net.A[L]` are only possible when the layer exists. -/
def NamesNodeP (aspects : Nat) (aligned : Bool) (n : α) (past : List (POp α W)) : POp α W → Prop
  | .intraAddNode L m => HasLayer aspects aligned past L ∧ m = n
  | .intraSet L i j _ => HasLayer aspects aligned past L ∧ (i = n ∨ j = n)
  | op => ∃ o, general op = some o ∧ NamesNode aspects n o

/-- A call puts node `n` on the layer `s` (tuple of elementary layers) of a network that is not
node-aligned. -/
def PutsOnLayer (aspects : Nat) (n : α) (s : List α) (past : List (POp α W)) : POp α W → Prop
  | .intraAddNode L m => HasLayer aspects false past L ∧ L = .ofList s ∧ m = n
  | .intraSet L i j _ => HasLayer aspects false past L ∧ L = .ofList s ∧ (i = n ∨ j = n)
  | op => ∃ o, general op = some o ∧ NamesNodeLayer aspects (n :: s) o

/-- The two orientations of a link between nodes. -/
def SameLink (directed : Bool) (i j a b : α) : Prop := (a = i ∧ b = j) ∨ (directed = false ∧ a = j ∧ b = i)

open Classical in
/-- The value a call writes to the link from node `i` to node `j` of layer `s`, if it writes it: an
assignment `net[a,b,s]=w` with `a ≠ b`, or `net.A[s][a,b]=w` if the layer exists. -/
noncomputable def writtenP (aspects : Nat) (directed aligned : Bool) (s : List α) (i j : α)
    (past : List (POp α W)) : POp α W → Option W
  | .setItem item w =>
    if ∃ a b, a ≠ b ∧ Addresses aspects item (a :: s) (b :: s) ∧ SameLink directed a b i j then some w else none
  | .intraSet L a b w =>
    if HasLayer aspects aligned past L ∧ L = .ofList s ∧ SameLink directed a b i j then some w else none
  | _ => none

/-- What a link of a layer must read after a history: the value of the last call writing it, else 0. -/
noncomputable def readP [Zero W] (aspects : Nat) (directed aligned : Bool) (ops : List (POp α W)) (s : List α)
    (i j : α) : W :=
  (ops.foldl (fun (st : List (POp α W) × W) op =>
    (st.1 ++ [op], (writtenP aspects directed aligned s i j st.1 op).getD st.2)) ([], 0)).2

/-- The history writes no self-link through an intra-layer network. -/
def NoIntraSelf (ops : List (POp α W)) : Prop := ∀ L i w, POp.intraSet L i i w ∉ ops

/-- The history puts the node-layer `u` into the network: in a node-aligned network, node and elementary
layers are named; otherwise the node is put on the layer. -/
def HasNodeLayer (aspects : Nat) (aligned : Bool) (ops : List (POp α W)) (u : List α) : Prop :=
  ∃ n s, u = n :: s ∧ s.length = aspects ∧
    ((aligned = true ∧ Happened (NamesNodeP aspects aligned n) ops ∧ HasLayer aspects aligned ops (.ofList s)) ∨
     (aligned = false ∧ Happened (PutsOnLayer aspects n s) ops))

/-- Layers `s` and `t` differ in exactly one aspect and the coupling of that aspect links them with
weight `w`. -/
def Coupled [IntNames α] (cs : List (Coupling α W)) (s t : List α) (w : W) : Prop :=
  ∃ d x y, s[d]? = some x ∧ x ≠ y ∧ t = s.set d y ∧
    (cs[d]? = some (.categorical w) ∨
     cs[d]? = some (.ordinal w) ∧ (IntNames.up x = some y ∨ IntNames.up y = some x))

/-- After the history there is a link of weight `w` from node-layer `u` to node-layer `v`: either they
are on the same layer and the link was written, or they are the same node on coupled layers. -/
def LinkWeight [IntNames α] [Zero W] (cs : List (Coupling α W)) (directed aligned : Bool) (ops : List (POp α W))
    (u v : List α) (w : W) : Prop :=
  (∃ i j s, u = i :: s ∧ v = j :: s ∧ i ≠ j ∧ w = readP cs.length directed aligned ops s i j ∧ w ≠ 0) ∨
  (∃ i s t, u = i :: s ∧ v = i :: t ∧ Coupled cs s t w)

/-- There is a link from `u` to `v`. -/
def Linked [IntNames α] [Zero W] (cs : List (Coupling α W)) (directed aligned : Bool) (ops : List (POp α W))
    (u v : List α) : Prop := ∃ w, LinkWeight cs directed aligned ops u v w

open Classical in
/-- The weight of the link from `u` to `v`, 0 if there is none. -/
noncomputable def weight [IntNames α] [Zero W] (cs : List (Coupling α W)) (directed aligned : Bool)
    (ops : List (POp α W)) (u v : List α) : W :=
  if h : ∃ w, LinkWeight cs directed aligned ops u v w then h.choose else 0

/-- Couplings are categorical or ordinal with a weight other than 0, and the layers named in ordinal
aspects are integers. -/
structure Usable [IntNames α] [Zero W] (cs : List (Coupling α W)) (aligned : Bool) (ops : List (POp α W)) : Prop where
  some_aspect : cs ≠ []
  kind : ∀ c ∈ cs, ∃ w, w ≠ 0 ∧ (c = .categorical w ∨ c = .ordinal w)
  ints : ∀ d w x, cs[d]? = some (.ordinal w) → (∃ op ∈ ops, NamesLayerP cs.length aligned (d + 1) x op) →
    (IntNames.up x).isSome = true ∧ (IntNames.down x).isSome = true

end Pymnet.Spec
