import Verif.Spec.PlexTransforms

/-!
Small specification of the choices `subnet_iter` ranges over.
-/

namespace Pymnet.Spec

open Pymnet

variable {α W : Type}

/-- A choice of elementary layers (of nodes, for index 0): of every aspect, some of its names; at least one of an aspect in
`remove`, all of the others. -/
structure Choice (d : Nat) (S : Nat → α → Prop) (remove : List Nat) (c : List (List α)) : Prop where
  length : c.length = d + 1
  nodup : ∀ s ∈ c, s.Nodup
  names : ∀ (a : Nat) s, c[a]? = some s → ∀ x ∈ s, S a x
  some_of : ∀ (a : Nat) s, c[a]? = some s → a ∈ remove → s ≠ []
  all_of : ∀ (a : Nat) s, c[a]? = some s → a ∉ remove → ∀ x, S a x → x ∈ s

/-- The same choice, up to the order of the names. -/
def SameChoice (c c' : List (List α)) : Prop := List.Forall₂ (fun s t => ∀ x, x ∈ s ↔ x ∈ t) c c'

/-- All names of a node-layer are in the choice. -/
def Within (c : List (List α)) (nl : List α) : Prop := ∀ (a : Nat) x s, nl[a]? = some x → c[a]? = some s → x ∈ s

open Classical in
/-- `m'` is the sub-network of the chosen node-layers, with the links of `R`. In networks that are not node-aligned its nodes are
those with a chosen node-layer. -/
def SubnetOf [DecidableEq α] [DecidableEq W] (d : Nat) (z : W) (dir al : Bool) (S : Nat → α → Prop) (NL : List α → Prop)
    (R : List α → List α → W) (c : List (List α)) (m' : MNet α W) : Prop :=
  Looks m' d z dir al
    (fun a x => if al = false ∧ a = 0 then ∃ nl, NL nl ∧ Within c nl ∧ nl[0]? = some x
      else S a x ∧ ∃ s, c[a]? = some s ∧ x ∈ s)
    (fun nl => NL nl ∧ Within c nl)
    (fun u v => if Within c u ∧ Within c v then R u v else z)

end Pymnet.Spec
