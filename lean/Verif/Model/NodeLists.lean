import Verif.Model.Creators

/-!
Model of `random_nodelists` (`/repo/pymnet/sampling/creators.py` 41-65) and of its use as the argument of
`er_multilayer_partially_interconnected`. What the random number generator draws is an argument.
-/

namespace Pymnet

open Py Models

variable {α W : Type} [DecidableEq α] [DecidableEq W] [Zero W] [One W]

/-- `random.sample(range(pool),k)`: it raises `ValueError` if `k` is larger than the pool, and otherwise returns `k` different
numbers of the pool; `draw` are these. If `draw` is not such a list it is not what a call can return (`Stop.more`). -/
def randomSample (pool k : Nat) (draw : List Nat) : Except Stop (List Nat) :=
  if pool < k then .error (.raised .valueError)
  else if draw.Nodup ∧ draw.length = k ∧ ∀ x ∈ draw, x < pool then .ok draw
  else .error .more

/-- The items of `random_nodelists` for the given layers (creators.py 64-65). In Python 3 there is no `xrange`. -/
def nodeListsFor (py3 : Bool) (pool k : Nat) (draws : Nat → List Nat) : List Nat → Except Stop (List (List Nat))
  | [] => .ok []
  | i :: is =>
    if py3 then .error (.raised .nameError)
    else
      match randomSample pool k (draws i) with
      | .error e => .error e
      | .ok s =>
        match nodeListsFor py3 pool k draws is with
        | .error e => .error e
        | .ok l => .ok (s :: l)

/-- All items of the generator `random_nodelists(poolsize,nodes_per_layer,layers)` (creators.py 41-65); `draws i` is what is drawn
for layer `i`. The arguments are not negative. -/
def nodeLists (py3 : Bool) (pool k layers : Nat) (draws : Nat → List Nat) : Except Stop (List (List Nat)) :=
  nodeListsFor py3 pool k draws (List.range layers)

/-- `er_multilayer_partially_interconnected(random_nodelists(pool,k,layers),p)` (creators.py 6-39). The generator is used up by the
loop that adds the nodes, and what it raises ends the call, so that the lists can be drawn first. -/
noncomputable def erRandom (py3 : Bool) (ix : Nat → α) (pool k layers : Nat) (draws : Nat → List Nat) (p : ℝ) (r : Nat → Nat → ℝ) :
    Except Stop (MNet α W) :=
  match nodeLists py3 pool k layers draws with
  | .error e => .error e
  | .ok lists =>
    match (erPart ix (lists.map fun l => l.map ix) p r : Except Err (MNet α W)) with
    | .error e => .error (.raised e)
    | .ok m => .ok m

end Pymnet
