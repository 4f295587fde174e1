import Verif.Model.Transforms

/-! `aggregate` (/repo/pymnet/transforms.py 14-98) into a network given by the caller. -/

namespace Pymnet

open Py

/-- `aggregate(net,aspects,newNet=m0,selfEdges=selfEdges)` (transforms.py 14-98): the network `m0` afterwards, as `newNet==None` is false for every
network (net.py 175-177, 1263-1270). `asp` is the tuple of aspects. -/
def View.aggregateInto {α W : Type} [DecidableEq α] [DecidableEq W] [Add W] (v : View α W) (m0 : MNet α W) (asp : List Nat) (selfEdges : Bool) :
    Except Err (MNet α W) :=
  if m0.aspects + asp.length ≠ v.aspects then .error .assertionError
  else if ¬ (∀ d ∈ asp, 0 < d ∧ d ≤ v.aspects + 1) then .error .assertionError
  else
    match forE (fun (m : MNet α W) n => (m.addNode n none).toExcept) (v.slices.headD []) m0 with
    | .error e => .error e
    | .ok m =>
      match v.edges with
      | .error e => .error e
      | .ok es =>
        match forE (aggregateEdge v.aspects asp selfEdges) es m with
        | .error e => .error e
        | .ok m =>
          if v.fic = false ∧ 0 < m.aspects then
            match v.nodeLayers with
            | .error e => .error e
            | .ok nls => forE (aggregateNodeLayer v.aspects asp) nls m
          else .ok m

end Pymnet
