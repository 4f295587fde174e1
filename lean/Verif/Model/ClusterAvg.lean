import Verif.Model.CycleAdj

/-! Model of the averages of local clustering coefficients and of the lists of elementary cycles (pymnet/cc.py): `cc_layers_avg`,
`gcc_from_lcc`, `cc_aw_vector`. Numbers are exact. -/

namespace Pymnet

open Py

/-- `len(x)` where `x` is the result of `map` or `filter`: a list in Python 2; an iterator, which has no length, in
Python 3. -/
def lenOfLazy {β : Type} (py3 : Bool) (l : List β) : Except Err Nat := if py3 then .error .typeError else .ok l.length

/-- `gcc_from_lcc` (cc.py 1118-1124). `f` is `lambda node:lcc(net,node,undefReturn=None)`, with `none` for `None`. In Python 3
`len` raises before the lazy `map` has called `lcc`. -/
def View.gccFromLcc {α W : Type} (py3 : Bool) (v : View α W) (f : α → Except Err (Option ℚ)) : Except Err (Option ℚ) :=
  if py3 then do
    let _ ← lenOfLazy py3 (v.nodes.map f)
    pure none
  else do
    let xs ← mapE f v.nodes
    let ys := xs.filterMap id
    let n ← lenOfLazy py3 ys
    if n > 0 then pure (some (ys.sum / n)) else pure none

namespace MPlex

variable {α K : Type} [DecidableEq α] [IntNames α]

/-- `cc_layers_avg` (cc.py 281-285). `sum(tot)` divides (also in Python 3, where `map` is lazy) before `len(tot)` is
evaluated. -/
def layersAvg [DecidableEq K] (py3 : Bool) (p : MPlex α K) (node : α) : Except Err ℚ := do
  let s ← p.ccSequence node
  let tot ← mapE (fun xy : Nat × ℚ => divE (xy.1 : ℚ) xy.2) (s.1.zip s.2)
  let n ← lenOfLazy py3 tot
  divE tot.sum n

variable [Field K] [LinearOrder K] [FloorRing K]

/-- `cc_aw_vector` (cc.py 719-730): `net` iterates over the nodes, `net.get_layers(1)` over the layers. -/
def ccAwVector (p : MPlex α K) : Except Err (AwLists Int) := do
  let ls ← p.view.layers1
  let vs ← mapE (fun u : α × α => p.elementaryCycles (some u.1) (some u.2) none)
    (p.view.nodes.flatMap fun n => ls.map fun l => (n, l))
  pure ⟨vs.map fun v => (closedOf v).1, vs.map fun v => (possibleOf v).1, vs.map fun v => (closedOf v).2.1,
    vs.map fun v => (possibleOf v).2.1, vs.map fun v => (closedOf v).2.2, vs.map fun v => (possibleOf v).2.2⟩

end MPlex

end Pymnet
