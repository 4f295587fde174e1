import Verif.Model.Plex

/-!
Model of hashing networks (`/repo/pymnet/net.py` 620-621). Pickling and the hash of byte strings are arguments: `dumps` is what
`pickle.dumps` returns for the state of the object, `hash` is the hash of byte strings.
-/

namespace Pymnet

variable {α W B H : Type}

/-- `MultilayerNetwork.__hash__` (net.py 620-621). -/
def MNet.pyHash (dumps : MNet α W → B) (hash : B → H) (m : MNet α W) : Except Err H := .ok (hash (dumps m))

/-- `hash(net)` of a multiplex network: the class defines `__eq__` and not `__hash__` (net.py 884-1293), so that in Python 3 its
objects cannot be hashed; in Python 2 `__hash__` is inherited (net.py 620-621). -/
def MPlex.pyHash (py3 : Bool) (dumps : MPlex α W → B) (hash : B → H) (p : MPlex α W) : Except Err H :=
  if py3 then .error .typeError else .ok (hash (dumps p))

end Pymnet
