import Verif.Model.Transforms

/-!
Model of the mappings that show an undirected monoplex network to networkx: `MonoplexGraphWrapper_adj`,
`MonoplexGraphWrapper_adjlist`, `MonoplexGraphWrapper_singleedge`, `MonoplexGraphWrapper_node` (`/repo/pymnet/nxwrap.py` 28-132).

A mapping is represented by the network and the keys that lead to it: `adj`, `adj[u]`, `adj[u][v]`. The conversion of tuples to
`ntuple` (nxwrap.py 55, 69, 86, 100, 119) keeps the value of the key; a key that is not hashable is not modelled.
-/

namespace Pymnet.NxAdj

open Py

variable {α W : Type} [DecidableEq α] [DecidableEq W]

/-- `iter(adj)` and `iter(node)` (nxwrap.py 92-94, 125-127): the nodes of the network (net.py 569-573). -/
def adjIter (m : MNet α W) : List α := m.slices.headD []

/-- `len(adj)` and `len(node)` (nxwrap.py 95-96, 128-129). -/
def adjLen (m : MNet α W) : Nat := m.len

/-- `adj[key]` (nxwrap.py 85-91) gives the mapping of a node or raises; `node[key]` (nxwrap.py 118-124) gives an empty dictionary or
raises. `key in self.net` iterates over the nodes. -/
def adjGet (m : MNet α W) (key : α) : Except Err Unit := if key ∈ adjIter m then .ok () else .error .keyError

/-- `iter(adj[u])` (nxwrap.py 61-63): `for node in net[u]`, the first entries of the neighbours (net.py 766-775). -/
def rowIter (m : MNet α W) (u : α) : Except Err (List α) :=
  match m.view.iterTotal [u] none with
  | .error e => .error e
  | .ok l => View.collect (fun nl =>
      match nl with
      | x :: _ => .ok [x]
      | [] => .error .indexError) l

/-- `len(adj[u])` (nxwrap.py 64-65). -/
def rowLen (m : MNet α W) (u : α) : Except Err Int := m.view.deg [u] none

/-- `adj[u][key]` (nxwrap.py 54-60). -/
def rowGet (m : MNet α W) (u key : α) : Except Err Unit :=
  match rowIter m u with
  | .error e => .error e
  | .ok l => if key ∈ l then .ok () else .error .keyError

/-- `adj[u][v][key]` (nxwrap.py 33-37); `weight` says that the key is `"weight"`. -/
def cellGet (m : MNet α W) (u v : α) (weight : Bool) : Except Err W :=
  if weight then
    match m.view.readItem [u, v] with
    | .error e => .error e
    | .ok it => it.num
  else .error .keyError

/-- What is assigned to `adj[u][v]`: a dictionary, in the order of its keys, or the mapping of a link, which has the only key
`"weight"`, or something else. -/
inductive Data (W : Type) where
  | dict (items : List (String × W))
  | bare (w : W)

/-- `adj[u][v]=val` (nxwrap.py 68-77). -/
def rowSet [One W] (m : MNet α W) (u v : α) : Data W → Outcome (MNet α W)
  | .dict (kw :: _) => m.setItem [u, v] kw.2
  | .dict [] => m.setItem [u, v] 1
  | .bare w => m.setItem [u, v] w

/-- `del adj[u][v]` (nxwrap.py 78-79). -/
def rowDel (m : MNet α W) (u v : α) : Outcome (MNet α W) := m.setItem [u, v] m.noEdge

/-- `adj[u][v][key]=w` (nxwrap.py 43-45). -/
def cellSet (m : MNet α W) (u v : α) (weight : Bool) (w : W) : Outcome (MNet α W) :=
  if weight then m.setItem [u, v] w else (m, none)

/-- `del adj[u][v][key]` (nxwrap.py 46-48). -/
def cellDel (m : MNet α W) (u v : α) (weight : Bool) : Outcome (MNet α W) :=
  if weight then m.setItem [u, v] m.noEdge else (m, none)

/-- `adj[u]={...}` (nxwrap.py 99-108); the assignment of anything else raises (line 107-108) and is not modelled. -/
def adjSet [One W] (m : MNet α W) (u : α) (d : List (α × Data W)) : Except Err (MNet α W) :=
  match (m.addNode u none).toExcept with
  | .error e => .error e
  | .ok m => forE (fun m kv => (rowSet m u kv.1 kv.2).toExcept) d m

end Pymnet.NxAdj
