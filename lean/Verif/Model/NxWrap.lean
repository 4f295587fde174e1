import Verif.Model.Net

/-!
Model of the decorator of `/repo/pymnet/nxwrap.py` (`autowrap` 160-163, `networkxdecorator` 165-205).

The wrapped function is arbitrary: it gets the arguments and the state of the world, which includes the attribute
`networkx.Graph`, and returns or raises in a new state. It may call other wrapped functions, change the networks it is
given, and assign `networkx.Graph` itself. Keyword arguments are handled like positional ones (the conversion of tuples
to `ntuple` in nxwrap.py 182-183 is part of the arbitrary function here).
-/

namespace Pymnet.Nx

open Py

/-- A value passed to or returned by a wrapped function: a network of pymnet (with the number of its aspects, whether
it is directed, and its identity), a `MonoplexGraphNetworkxView` of a network, or anything else. -/
inductive Val (ν β : Type) where
  | net (aspects : Nat) (directed : Bool) (id : ν)
  | view (id : ν)
  | other (b : β)
  deriving DecidableEq

/-- What a call can observe and change: the attribute `networkx.Graph`, and the rest. -/
structure World (κ ρ : Type) where
  graph : κ
  rest : ρ

variable {ν β κ ρ : Type}

/-- `autowrap` and the test whether a value is a network (nxwrap.py 160-163, 171-174, 179-181). -/
def autowrap : Val ν β → Except Err (Val ν β)
  | .net aspects directed id =>
    if aspects ≠ 0 then .error .assertionError
    else if directed ≠ false then .error .assertionError
    else .ok (.view id)
  | v => .ok v

/-- the loops over the arguments (nxwrap.py 169-183) -/
def autowrapAll : List (Val ν β) → Except Err (List (Val ν β))
  | [] => .ok []
  | v :: vs =>
    match autowrap v with
    | .error e => .error e
    | .ok v' =>
      match autowrapAll vs with
      | .error e => .error e
      | .ok vs' => .ok (v' :: vs')

/-- `if isinstance(rval,MonoplexGraphNetworkxView): rval=rval.net` (nxwrap.py 196-198). The network of a view has no
aspects and is undirected (nxwrap.py 137, 161-163). -/
def unwrap : Val ν β → Val ν β
  | .view id => .net 0 false id
  | v => v

/-- A function of networkx: arguments and world to world and result. The result of a raise is an exception of any type
`ε`. -/
abbrev Fn (ν β κ ρ ε : Type) := List (Val ν β) → World κ ρ → World κ ρ × Except ε (Val ν β)

/-- `networkxdecorator(f)` (nxwrap.py 165-205). `view` is the class `MonoplexGraphNetworkxView`; `lift` makes an
assertion error of the wrapping an exception. -/
def decorate {ε : Type} (lift : Err → ε) (view : κ) (f : Fn ν β κ ρ ε) : Fn ν β κ ρ ε := fun args w =>
  match autowrapAll args with
  | .error e => (w, .error (lift e))
  | .ok args' =>
    let original := w.graph
    match f args' { w with graph := view } with
    | (w', .error e) => (w', .error e)
    | (w', .ok r) => ({ w' with graph := original }, .ok (unwrap r))

/-- A sequence of calls by a user who catches every exception: only the world matters. -/
def callAll {ε : Type} (lift : Err → ε) (view : κ) :
    List (Fn ν β κ ρ ε × List (Val ν β)) → World κ ρ → World κ ρ
  | [], w => w
  | (f, args) :: cs, w => callAll lift view cs (decorate lift view f args w).1

end Pymnet.Nx
