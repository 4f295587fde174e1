import Verif.Model.Isom

/-!
Model of the choice of the backend by name in the isomorphism functions (`/repo/pymnet/isomorphisms/__init__.py`).
-/

namespace Pymnet

open Py

variable {α W β : Type} [DecidableEq α] [DecidableEq W]

/-- An auxiliary graph builder: the four flags (isomcore.py 6-9) and what its graph library computes. -/
structure Builder (β : Type) where
  hasComparison : Bool
  hasCompleteInvariant : Bool
  hasAutomorphismGenerators : Bool
  hasIsomorphismMapping : Bool
  match? : CGraph → CGraph → Option (Dict Nat Nat)
  gens : CGraph → List (Dict Nat Nat)
  canon : CGraph → β

/-- `AuxiliaryGraphBuilderNX` (nxbackend.py 6-8). Only `compare_structure` and `_isomorphism_mapping` are defined there; the other
two values are never used. -/
def builderNX (match? : CGraph → CGraph → Option (Dict Nat Nat)) (gens : CGraph → List (Dict Nat Nat)) (canon : CGraph → β) :
    Builder β := ⟨true, false, false, true, match?, gens, canon⟩

/-- `AuxiliaryGraphBuilderBliss` (blissbackend.py 11-15). -/
def builderBliss (match? : CGraph → CGraph → Option (Dict Nat Nat)) (gens : CGraph → List (Dict Nat Nat)) (canon : CGraph → β) :
    Builder β := ⟨true, true, true, true, match?, gens, canon⟩

/-- The names of the backends that can do a task (\_\_init\_\_.py 38-46); `bs` is `auxbuilder_backends`, in the order of its items. -/
def backendsFor (task : Builder β → Bool) (bs : Dict String (Builder β)) : List String :=
  (bs.filter fun p => task p.2).map Prod.fst

/-- The choice of the builder (\_\_init\_\_.py 76-82, 116-122, 154-160, 200-206). -/
def chooseBackend (task : Builder β → Bool) (bs : Dict String (Builder β)) (backend : String) : Except Err (Builder β) :=
  match backendsFor task bs with
  | [] => .error .assertionError
  | first :: rest =>
    if backend = "auto" then (Dict.get bs first).elim (.error .keyError) .ok
    else if backend ∈ first :: rest then (Dict.get bs backend).elim (.error .keyError) .ok
    else .error .assertionError

/-- `is_isomorphic(net1,net2,allowed_aspects,backend)` (\_\_init\_\_.py 50-85). -/
def isIsomorphicBy [LinearOrder α] (bs : Dict String (Builder β)) (v w : View α W) (allowed : Option (List Nat)) (backend : String) :
    Except Err Bool :=
  match chooseBackend Builder.hasComparison bs backend with
  | .error e => .error e
  | .ok b => isIsomorphic b.match? v w allowed

/-- `get_complete_invariant(net,allowed_aspects,backend)` (\_\_init\_\_.py 87-124). -/
def completeInvariantBy [LinearOrder α] (bs : Dict String (Builder β)) (v : View α W) (allowed : Option (List Nat)) (backend : String) :
    Except Err (List (List α × Nat) × β) :=
  match chooseBackend Builder.hasCompleteInvariant bs backend with
  | .error e => .error e
  | .ok b => completeInvariant b.canon v allowed

/-- `get_automorphism_generators(net,allowed_aspects,include_fixed,backend)` (\_\_init\_\_.py 128-165). -/
def automorphismGeneratorsBy [LinearOrder α] (bs : Dict String (Builder β)) (v : View α W) (allowed : Option (List Nat))
    (includeFixed : Bool) (backend : String) : Except Err (List (List (Dict α α))) :=
  match chooseBackend Builder.hasAutomorphismGenerators bs backend with
  | .error e => .error e
  | .ok b => automorphismGenerators b.gens v allowed includeFixed

/-- `get_isomorphism(net1,net2,allowed_aspects,include_fixed,backend)` (\_\_init\_\_.py 169-210). -/
def getIsomorphismBy [LinearOrder α] (bs : Dict String (Builder β)) (v w : View α W) (allowed : Option (List Nat))
    (includeFixed : Bool) (backend : String) : Except Err (Option (List (Dict α α))) :=
  match chooseBackend Builder.hasIsomorphismMapping bs backend with
  | .error e => .error e
  | .ok b => getIsomorphism b.match? v w allowed includeFixed

end Pymnet
