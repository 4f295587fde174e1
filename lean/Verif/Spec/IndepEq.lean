import Mathlib.Logic.Relation
import Mathlib.Data.List.Basic
import Verif.Py.Dict

/-!
Specification of dependency networks of equations: `net e` are the equations from which `e` follows. Independent of the model.
-/

namespace Pymnet.Spec

open Py

variable {κ : Type} [DecidableEq κ]

/-- There is a link from `a` to `b` in the network. -/
def Arrow (net : Dict κ (List κ)) (a b : κ) : Prop := ∃ bs, Dict.get net a = some bs ∧ b ∈ bs

/-- There is a directed path from `a` to `b`. -/
def EqReaches (net : Dict κ (List κ)) : κ → κ → Prop := Relation.ReflTransGen (Arrow net)

/-- Every link ends at a key of the network. -/
def Closed (net : Dict κ (List κ)) : Prop := ∀ a b, Arrow net a b → b ∈ Dict.keys net

/-- `cs` are the strongly connected components of the network, in an order in which links go to the same or an earlier component. -/
structure IsSccs (net : Dict κ (List κ)) (cs : List (List κ)) : Prop where
  /-- components have equations, each once -/
  nonempty : ∀ c ∈ cs, c ≠ [] ∧ c.Nodup
  /-- every key is in some component -/
  cover : ∀ a, a ∈ Dict.keys net ↔ ∃ c ∈ cs, a ∈ c
  /-- and in one only -/
  once : ∀ (i j : Nat) (c d : List κ) (a : κ), cs[i]? = some c → cs[j]? = some d → a ∈ c → a ∈ d → i = j
  /-- two keys are in the same component iff there are paths in both directions -/
  same : ∀ a b, a ∈ Dict.keys net → b ∈ Dict.keys net → ((∃ c ∈ cs, a ∈ c ∧ b ∈ c) ↔ EqReaches net a b ∧ EqReaches net b a)
  /-- links go to the same or an earlier component -/
  order : ∀ (i j : Nat) (c d : List κ) (a b : κ), cs[i]? = some c → cs[j]? = some d → a ∈ c → b ∈ d → Arrow net a b → j ≤ i

/-- `e` follows from the equations in `I`: it is one of them, or it has links, all to equations that follow. -/
inductive Follows (net : Dict κ (List κ)) (I : κ → Prop) : κ → Prop
  | base {e : κ} : I e → Follows net I e
  | step {e : κ} {ds : List κ} : Dict.get net e = some ds → ds ≠ [] → (∀ d ∈ ds, Follows net I d) → Follows net I e

/-- `I` and `D` split the keys of the network. -/
def Splits (net : Dict κ (List κ)) (I D : List κ) : Prop :=
  I.Nodup ∧ D.Nodup ∧ (∀ e, e ∈ Dict.keys net ↔ e ∈ I ∨ e ∈ D) ∧ ∀ e ∈ I, e ∉ D

/-- One alternative for every equation that has one; nothing for the others. -/
def Alternative (net : Dict κ (List (List κ))) (ch : Dict κ (List κ)) : Prop :=
  Dict.keys ch = Dict.keys net ∧ ∀ e alts, Dict.get net e = some alts →
    ∃ ds, Dict.get ch e = some ds ∧ (ds ∈ alts ∨ (alts = [] ∧ ds = []))

end Pymnet.Spec
