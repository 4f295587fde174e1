import Verif.Props.Transforms4
import Verif.Proofs.FullKeys

/-! Properties C29, C30: `==` of copies and of networks relabelled back, for any number of aspects. -/

namespace Pymnet

open Py

variable {α W : Type} [DecidableEq α] [DecidableEq W]

variable {m : MNet α W} {d : Nat} {z : W} {dir al : Bool} {S : Nat → α → Prop} {NL : List α → Prop}
  {R : List α → List α → W}

/-- **C29** for any number of aspects, node-aligned or not: if every layer given to `add_node` in the history of the network was
complete, `subnet` with everything selected is `==` to the network. -/
theorem C29_copy_full (h : Spec.Looks m d z dir al S NL R) (hn : al = false → ∀ x, S 0 x → ∃ nl, NL nl ∧ nl[0]? = some x)
    {ops : List (Op α W)} (hm : m = after d z dir al ops) (hf : Spec.FullLayers d ops) :
    ∃ m', m.subnet (List.replicate (d + 1) none) false = .ok m' ∧ m'.eq m = .ok true ∧ m.eq m' = .ok true := by
  obtain ⟨m', e, hl, -⟩ := C29_copy_partial h hn
  have fm : m.Full d := by rw [hm]; exact (MNet.Full.init d z dir al).run ops hf
  have fm' : m'.Full d := by
    refine MNet.full_subnetInto m.view _ _ ?_ (fun nls hnls nl hin => ?_) e
    · rw [h.aspects_eq]; exact MNet.Full.init ..
    · refine h.nl_length ((h.nodeLayers.2 nl).1 ?_)
      have : m.view.nodeLayers = .ok m.nodeLayers := rfl
      rw [this] at hnls; cases hnls; exact hin
  exact ⟨m', e, hl.eq_full h fm' fm, h.eq_full hl fm fm'⟩

/-- **C30**, relabelling back, for any number of aspects, node-aligned or not: if the second renaming undoes the first one and
every layer given to `add_node` in the history of the network was complete, relabelling twice gives a network that is `==` to the
original one. -/
theorem C30_back_full (h : Spec.Looks m d z dir al S NL R) (nodeNames : Dict α α) (layerNames : List (Dict α α))
    (nodeNames' : Dict α α) (layerNames' : List (Dict α α))
    (hback : ∀ k ≤ d, ∀ x, S k x →
      Spec.newName nodeNames' layerNames' k (Spec.newName nodeNames layerNames k x) = x)
    {ops : List (Op α W)} (hm : m = after d z dir al ops) (hf : Spec.FullLayers d ops) :
    ∃ m' m'', m.relabel nodeNames layerNames = .ok m' ∧ m'.relabel nodeNames' layerNames' = .ok m'' ∧
      m''.eq m = .ok true ∧ m.eq m'' = .ok true := by
  obtain ⟨m', m'', e, e', hl, -⟩ := C30_back_partial h nodeNames layerNames nodeNames' layerNames' hback
  obtain ⟨m1, R1, e1, hl1, -, -⟩ := C30_relabel h nodeNames layerNames (by
    intro k hk x y hx hy he
    rw [← hback k hk x hx, ← hback k hk y hy, he])
  rw [e] at e1; cases e1
  have fm : m.Full d := by rw [hm]; exact (MNet.Full.init d z dir al).run ops hf
  have fm' : m''.Full d :=
    MNet.full_relabel hl1.aspects_eq (fun nl hin => hl1.nl_length ((hl1.nodeLayers.2 nl).1 hin)) _ _ e'
  exact ⟨m', m'', e, e', hl.eq_full h fm' fm, h.eq_full hl fm fm'⟩

/-- A history with two aspects, not node-aligned. -/
def fullOps : List (Op Nat Int) :=
  [.addNode 9 (some (.tup [10, 21])), .setItem [1, 2, 10, 20] 5, .setItem [1, 2, 11, 20] 3, .setItem [1, 3, 10, 11, 20, 21] 4]

/-- The same history and a node put on a layer of which the second elementary layer is missing. -/
def shortOps : List (Op Nat Int) := .addNode 9 (some (.tup [10])) :: fullOps

example : Spec.FullLayers 2 fullOps ∧ ∃ m', (after 2 0 true false fullOps).subnet [none, none, none] false = .ok m' ∧
    m'.eq (after 2 0 true false fullOps) = .ok true := by
  refine ⟨?_, _, rfl, by decide +kernel⟩
  intro n L hL
  simp only [fullOps, List.mem_cons, Op.addNode.injEq, Option.some.injEq, List.not_mem_nil, or_false, reduceCtorEq] at hL
  rw [hL.2]; rfl

example : ∃ m' m'', (after 2 0 true false fullOps).relabel [(1, 2), (2, 1)] [[], [(20, 30)]] = .ok m' ∧
    m'.view.readItem [2, 3, 10, 11, 30, 21] = .ok (.weight 4) ∧ m'.relabel [(1, 2), (2, 1)] [[], [(30, 20)]] = .ok m'' ∧
    m''.eq (after 2 0 true false fullOps) = .ok true := ⟨_, _, rfl, by decide +kernel, rfl, by decide +kernel⟩

/-- The property C29 is false when `add_node` was given an incomplete layer: the copy is not `==` to the network. -/
theorem C29_false_short : ∃ m', (after 2 0 true false shortOps).subnet [none, none, none] false = .ok m' ∧
    m'.eq (after 2 0 true false shortOps) = .ok false := ⟨_, rfl, by decide +kernel⟩

/-- The property C30 is false when `add_node` was given an incomplete layer: the network relabelled by nothing is not `==` to
the network. -/
theorem C30_false_short : ∃ m', (after 2 0 true false shortOps).relabel [] [] = .ok m' ∧
    m'.eq (after 2 0 true false shortOps) = .ok false := ⟨_, rfl, by decide +kernel⟩

end Pymnet
