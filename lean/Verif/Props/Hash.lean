import Verif.Model.Hash
import Verif.Props.Net

/-! C155: hashes of networks. -/

set_option linter.unusedSectionVars false

namespace Pymnet

open Py

variable {α W B H : Type} [DecidableEq α] [DecidableEq W]

/-- Pickling as far as it is assumed: from the pickle of a network its state can be restored, with the items of dictionaries in
their order. -/
def Spec.Restores (dumps : MNet α W → B) : Prop := Function.Injective dumps

/-- The two pickles have different hashes. -/
def Spec.NoCollision (dumps : MNet α W → B) (hash : B → H) (m m' : MNet α W) : Prop :=
  dumps m ≠ dumps m' → hash (dumps m) ≠ hash (dumps m')

/-- **C155, what holds.** General networks can be hashed; networks with the same hash are equal, unless two pickles have the same
hash; and `add_node(n)` for a node and `add_layer(l,a)` for an elementary layer that the network has already leave the hash as it
is. -/
theorem C155_hash_partial {dumps : MNet α W → B} (hd : Spec.Restores dumps) (hash : B → H) (a : Nat) (n : W) (d f : Bool)
    (ops ops' : List (Op α W)) :
    (∃ h, (after a n d f ops).pyHash dumps hash = .ok h) ∧
    (Spec.NoCollision dumps hash (after a n d f ops) (after a n d f ops') →
      (after a n d f ops).pyHash dumps hash = (after a n d f ops').pyHash dumps hash →
      (after a n d f ops).eq (after a n d f ops') = .ok true) ∧
    (∀ x s, (after a n d f ops).slices[0]? = some s → x ∈ s →
      (after a n d f (ops ++ [.addNode x none])).pyHash dumps hash = (after a n d f ops).pyHash dumps hash) ∧
    ∀ x k s, (after a n d f ops).slices[k]? = some s → x ∈ s →
      (after a n d f (ops ++ [.addLayer x k])).pyHash dumps hash = (after a n d f ops).pyHash dumps hash := by
  have hadd : ∀ (m : MNet α W) x k s, m.slices[k]? = some s → x ∈ s → (m.sliceAdd k x).1 = m := by
    intro m x k s h1 h2
    obtain ⟨hk, e⟩ := List.getElem?_eq_some_iff.1 h1
    have hs : m.slices.modify k (sadd · x) = m.slices := by
      rw [List.modify_eq_set_getElem? , h1]
      subst e; simp [sadd, h2]
    unfold MNet.sliceAdd
    rw [if_pos hk, hs]
  have hrun : ∀ op, after a n d f (ops ++ [op]) = ((after a n d f ops).step op).1 := by
    intro op
    unfold after MNet.run
    rw [List.foldl_append]; rfl
  have hnode : ∀ x s, (after a n d f ops).slices[0]? = some s → x ∈ s → ((after a n d f ops).addNode x none).1 = after a n d f ops := by
    intro x s h1 h2
    have e := hadd _ x 0 s h1 h2
    have hlt := (List.getElem?_eq_some_iff.1 h1).1
    unfold MNet.addNode
    unfold MNet.sliceAdd at e ⊢
    rw [if_pos hlt] at e ⊢
    exact e
  refine ⟨⟨_, rfl⟩, fun hc he => ?_, fun x s h1 h2 => ?_, fun x k s h1 h2 => ?_⟩
  · have e : after a n d f ops = after a n d f ops' := by
      by_contra hne
      exact hc (fun e => hne (hd e)) (Except.ok.inj he)
    obtain ⟨b, h1, h2⟩ := C14_eq_partial a a n n d d f ops ops Iff.rfl
    rw [← e, h1, h2.2 ((C14_equivalence f).1 a n d ops)]
  · rw [hrun]
    exact congrArg _ (hnode x s h1 h2)
  · rw [hrun]
    show MNet.pyHash dumps hash ((after a n d f ops).addLayer x k).1 = _
    unfold MNet.addLayer
    split_ifs with hk
    · subst hk; rw [hnode x s h1 h2]
    · rw [hadd _ x k s h1 h2]

/-- the same links written in two orders, and a link written and deleted again, or not -/
def hashOps1 : List (Op Nat Int) := [.setItem [1, 2, 10] 1, .setItem [3, 4, 10] 1]
def hashOps2 : List (Op Nat Int) := [.setItem [3, 4, 10] 1, .setItem [1, 2, 10] 1]
def hashOps3 : List (Op Nat Int) := [.setItem [1, 2, 10] 1, .setItem [1, 2, 10] 0]
def hashOps4 : List (Op Nat Int) := [.addNode 1 none, .addNode 2 none, .addLayer 10 1]

/-- **C155 is false of the code**: two equal networks, with the same links written in different orders, have different hashes
(unless their pickles, which differ, have the same hash). -/
theorem C155_false_order :
    (after 1 0 false true hashOps1).eq (after 1 0 false true hashOps2) = .ok true ∧
    ∀ (dumps : MNet Nat Int → B) (hash : B → H), Spec.Restores dumps →
      Spec.NoCollision dumps hash (after 1 0 false true hashOps1) (after 1 0 false true hashOps2) →
      (after 1 0 false true hashOps1).pyHash dumps hash ≠ (after 1 0 false true hashOps2).pyHash dumps hash := by
  refine ⟨by decide, fun dumps hash hd hc he => hc (fun e => ?_) (Except.ok.inj he)⟩
  exact absurd (hd e) (by decide)

/-- **C155 is false of the code**: so do a network whose only link was deleted and the equal network that never had a link. Here the
items of the dictionaries differ, not only their order. -/
theorem C155_false_deleted :
    (after 1 0 false true hashOps3).eq (after 1 0 false true hashOps4) = .ok true ∧
    (after 1 0 false true hashOps3).net.length ≠ (after 1 0 false true hashOps4).net.length ∧
    ∀ (dumps : MNet Nat Int → B) (hash : B → H), (∀ m m', dumps m = dumps m' → m.net.length = m'.net.length) →
      Spec.NoCollision dumps hash (after 1 0 false true hashOps3) (after 1 0 false true hashOps4) →
      (after 1 0 false true hashOps3).pyHash dumps hash ≠ (after 1 0 false true hashOps4).pyHash dumps hash := by
  refine ⟨by decide, by decide, fun dumps hash hd hc he => hc (fun e => ?_) (Except.ok.inj he)⟩
  exact absurd (hd _ _ e) (by decide)

/-- **C155 is false of the code in Python 3**: multiplex networks cannot be hashed. -/
theorem C155_false_multiplex [Zero W] (dumps : MPlex α W → B) (hash : B → H) (p : MPlex α W) :
    p.pyHash true dumps hash = .error .typeError := rfl

/-! ### the hypotheses can be met -/

example : Spec.Restores (id : MNet Nat Int → MNet Nat Int) ∧
    Spec.NoCollision (id : MNet Nat Int → MNet Nat Int) id (after 1 0 false true hashOps1) (after 1 0 false true hashOps2) :=
  ⟨Function.injective_id, fun h => h⟩

example : ∃ s, (after 1 0 false true hashOps1).slices[1]? = some s ∧ 10 ∈ s := ⟨_, rfl, by decide⟩

end Pymnet
