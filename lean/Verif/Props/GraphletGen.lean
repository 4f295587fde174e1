import Verif.Proofs.GenMain

/-!
Properties C87–C89: `graphlets` generates the connected multiplex networks of up to `n` nodes, one of each isomorphism
class.
-/

set_option linter.unusedSectionVars false

namespace Pymnet

open Py MPlex

variable {α W β σ : Type} [DecidableEq α] [DecidableEq W] [Zero W] [One W] [LawfulIntNames α] [LinearOrder α] [DecidableEq σ]
  {canon : CGraph → β} {str : List (List α × Nat) × β → σ} {allowed : Option (List Nat)} {c : Coupling α W}
  {idx : Nat → α} {layers : List α}

/-- **C87.** `graphlets(n,layers,n_l,couplings)` returns. `nets` has a list for each size from 2 to `n` (2 for smaller `n`),
and every network in the list of size `m` is an undirected, node-aligned multiplex network with the given coupling, whose
nodes are 0,...,m-1 and whose layers are `n_l` of the given ones, that is connected by its links, has weights 0 and 1 and no
self-links. -/
theorem C87_graphlets (hcanon : Spec.Canonical canon) (hstr : Function.Injective str)
    (hal : ∀ a ∈ Spec.mayChange 1 allowed, a ≤ 1) (hcpl : Spec.GoodCoupling layers c) (hidx : Function.Injective idx)
    (hone : (1 : W) ≠ 0) (n : Nat) (nl : Option Nat) :
    ∃ nets inv, graphlets canon str allowed [c] idx n layers nl = .ok (nets, inv) ∧
      (∀ m, (∃ l, Dict.get nets m = some l) ↔ 2 ≤ m ∧ m ≤ max n 2) ∧
      ∀ m l p, Dict.get nets m = some l → p ∈ l →
        ∃ ops, p = afterP [c] false 0 true ops ∧ Spec.Generated idx m (nl.getD layers.length) layers ops := by
  obtain ⟨nets, inv, e, h⟩ := graphlets_main (canon := canon) (str := str) (allowed := allowed) (c := c) (idx := idx)
    (layers := layers) ⟨hcanon, hstr, hal, hcpl, hidx, hone⟩ n nl
  refine ⟨nets, inv, e, fun m => ?_, fun m l p hl hp => ?_⟩
  · rw [← Option.isSome_iff_exists]; exact h.keys m
  · obtain ⟨k, hk⟩ := List.getElem?_of_mem hp
    exact h.gen m k p ⟨l, hl, hk⟩

/-- **C88.** No two networks returned by `graphlets`, at different places, are isomorphic, and `invariants` maps exactly the
complete invariants (as strings) of the returned networks, each to the place of the network it belongs to. -/
theorem C88_distinct (hcanon : Spec.Canonical canon) (hstr : Function.Injective str)
    (hal : ∀ a ∈ Spec.mayChange 1 allowed, a ≤ 1) (hcpl : Spec.GoodCoupling layers c) (hidx : Function.Injective idx)
    (hone : (1 : W) ≠ 0) {n : Nat} {nl : Option Nat} {nets : Dict Nat (List (MPlex α W))} {inv : Dict σ (Nat × Nat)}
    (hret : graphlets canon str allowed [c] idx n layers nl = .ok (nets, inv)) :
    (∀ (m k : Nat) l ops (m' k' : Nat) l' ops', Dict.get nets m = some l → l[k]? = some (afterP [c] false 0 true ops) →
      Dict.get nets m' = some l' → l'[k']? = some (afterP [c] false 0 true ops') →
      Spec.Isomorphic c allowed ops ops' → m = m' ∧ k = k') ∧
    ∀ key (m k : Nat), Dict.get inv key = some (m, k) ↔
      ∃ l p ci, Dict.get nets m = some l ∧ l[k]? = some p ∧ completeInvariant canon p.view allowed = .ok ci ∧ str ci = key := by
  have ok : GenOk canon str allowed c idx layers := ⟨hcanon, hstr, hal, hcpl, hidx, hone⟩
  obtain ⟨nets', inv', e, h⟩ := graphlets_main ok n nl
  rw [hret] at e
  cases e
  constructor
  · intro m k l ops m' k' l' ops' h1 h2 h3 h4 hiso
    obtain ⟨ops1, e1, g1⟩ := h.gen m k _ ⟨l, h1, h2⟩
    obtain ⟨ops2, e2, g2⟩ := h.gen m' k' _ ⟨l', h3, h4⟩
    have hm : 2 ≤ m := ((h.keys m).1 (by rw [h1]; rfl)).1
    have s1 := shown_congr e1
    have s2 := shown_congr e2
    have hiso' : Spec.Isomorphic c allowed ops1 ops2 := by
      rw [isomorphic_iff (gen_node g1 hm) (gen_layer g1 hidx hm), ← s1, ← s2]
      rwa [isomorphic_iff (by rw [s1]; exact gen_node g1 hm) (by rw [s1]; exact gen_layer g1 hidx hm)] at hiso
    obtain ⟨k1, k2, f1, f2, hiff⟩ := gen_keys ok g1 g2
    have hk := hiff.2 hiso'
    subst hk
    have a1 := (h.inv k1 m k).2 ⟨_, ⟨l, h1, h2⟩, by rw [e1]; exact f1⟩
    have a2 := (h.inv k1 m' k').2 ⟨_, ⟨l', h3, h4⟩, by rw [e2]; exact f2⟩
    rw [a1] at a2
    cases a2
    exact ⟨rfl, rfl⟩
  · intro key m k
    rw [h.inv key m k]
    unfold Stored MPlex.invariantKey
    constructor
    · rintro ⟨p, ⟨l, h1, h2⟩, h3⟩
      split at h3
      · cases h3
      · rename_i ci hci
        cases h3
        exact ⟨l, p, ci, h1, h2, hci, rfl⟩
    · rintro ⟨l, p, ci, h1, h2, h3, rfl⟩
      exact ⟨p, ⟨l, h1, h2⟩, by rw [h3]⟩

/-- **C89.** If the names of the nodes may change, every graphlet is found: every undirected, node-aligned multiplex network
with the given coupling, `m ≤ n` nodes (at least 2) and `n_l` of the given layers that is connected by its links, whatever
its node names and weights, is isomorphic to one in the list of size `m` (exactly one, by C88). -/
theorem C89_complete (hcanon : Spec.Canonical canon) (hstr : Function.Injective str)
    (hal : ∀ a ∈ Spec.mayChange 1 allowed, a ≤ 1) (h0 : 0 ∈ Spec.mayChange 1 allowed) (hcpl : Spec.GoodCoupling layers c)
    (hidx : Function.Injective idx) (hone : (1 : W) ≠ 0) {n : Nat} {nl : Option Nat}
    {nets : Dict Nat (List (MPlex α W))} {inv : Dict σ (Nat × Nat)}
    (hret : graphlets canon str allowed [c] idx n layers nl = .ok (nets, inv))
    {m : Nat} (h2 : 2 ≤ m) (hn : m ≤ n) (ops : List (POp α W))
    (hg : Spec.Graphlet m (nl.getD layers.length) layers (Spec.shown ops)) :
    ∃ l ops', Dict.get nets m = some l ∧ afterP [c] false 0 true ops' ∈ l ∧ Spec.Isomorphic c allowed ops' ops := by
  have ok : GenOk canon str allowed c idx layers := ⟨hcanon, hstr, hal, hcpl, hidx, hone⟩
  obtain ⟨nets', inv', e, h⟩ := graphlets_main ok n nl
  rw [hret] at e
  cases e
  obtain ⟨k, ops', ⟨l, h3, h4⟩, h5, f0, f1, hf⟩ := h.all h0 m h2 (by omega) _ hg (fun x i j => link_symm) (fun x i h => h.1 rfl)
  exact ⟨l, ops', h3, List.mem_of_getElem? h4, (isomorphic_iff (gen_node h5 h2) (gen_layer h5 hidx h2)).2 ⟨f0, f1, hf⟩⟩

/-! ### the hypotheses can be met -/

open Classical in
/-- Integers as names, two layers, no coupling (the default) or an ordinal one. -/
example (n : Nat) : ∃ canon : CGraph → (CGraph → Prop), ∃ nets inv,
    graphlets canon (id : List (List Int × Nat) × (CGraph → Prop) → _) none [(.uncoupled none : Coupling Int Int)]
      (fun k => (k : Int)) n [7, 8] none = .ok (nets, inv) := by
  refine ⟨fun g h => ∃ φ, Spec.ColorIso g h φ, ?_⟩
  have hC : Spec.Canonical fun g h => ∃ φ, Spec.ColorIso g h φ := by
    refine fun g h _ _ => ⟨fun e => ?_, ?_⟩
    · have := congrFun e h
      dsimp only at this
      rw [this]; exact ⟨_, Spec.ColorIso.refl h⟩
    · rintro ⟨φ, hφ⟩
      funext k
      exact propext ⟨fun ⟨ψ, hψ⟩ => ⟨_, hφ.symm.trans hψ⟩, fun ⟨ψ, hψ⟩ => ⟨_, hφ.trans hψ⟩⟩
  obtain ⟨nets, inv, e, -⟩ := C87_graphlets (allowed := none) (c := (.uncoupled none : Coupling Int Int))
    (idx := fun k => (k : Int)) (layers := [7, 8]) hC Function.injective_id (by decide) trivial
    (fun a b h => by simpa using h) (by decide) n none
  exact ⟨nets, inv, e⟩

example : Spec.GoodCoupling [7, 8] (.ordinal 1 : Coupling Int Int) := ⟨by decide, by decide⟩

/-- A graphlet: three nodes on a path, its two links on different layers. -/
example : Spec.Graphlet 3 2 [7, 8]
    (Spec.shown ([.setItem [10, 11, 7] 5, .setItem [11, 12, 8] 3] : List (POp Int Int))) := by
  have hc : [(.uncoupled none : Coupling Int Int)] ≠ [] := by simp
  set ops : List (POp Int Int) := [.setItem [10, 11, 7] 5, .setItem [11, 12, 8] 3] with hops
  obtain ⟨s0, s1, -, -, s4⟩ := after_spec hc false 0 true ops
  have n1 : ∀ x, (Spec.shown ops).node x ↔ x ∈ [(10 : Int), 11, 12] := by
    intro x
    refine (s0 x).symm.trans ?_
    rw [inSlice_getElem? (s := [10, 11, 12]) (by decide +kernel)]
  have l1 : ∀ x, (Spec.shown ops).layer x ↔ x ∈ [(7 : Int), 8] := by
    intro x
    refine (s1 1 x (by omega)).symm.trans ?_
    rw [inSlice_getElem? (s := [7, 8]) (by decide +kernel)]
  have r1 : (Spec.shown ops).link 7 10 11 := by
    refine ⟨by decide, ?_⟩
    have := s4 [7] 10 11 rfl
    rw [show Spec.readP 1 false true ops [7] 10 11 = _ from this.symm]
    decide +kernel
  have r2 : (Spec.shown ops).link 8 11 12 := by
    refine ⟨by decide, ?_⟩
    have := s4 [8] 11 12 rfl
    rw [show Spec.readP 1 false true ops [8] 11 12 = _ from this.symm]
    decide +kernel
  refine ⟨⟨_, by decide, rfl, n1⟩, ⟨_, List.Sublist.refl _, rfl, l1⟩, ?_⟩
  have b0 : Spec.LinkConnected (fun x => x = (10 : Int)) fun a b => ∃ x, (Spec.shown ops).layer x ∧ (Spec.shown ops).link x a b := by
    rintro i j rfl rfl; exact Relation.ReflTransGen.refl
  have sy : ∀ a b, (∃ x, (Spec.shown ops).layer x ∧ (Spec.shown ops).link x a b) →
      ∃ x, (Spec.shown ops).layer x ∧ (Spec.shown ops).link x b a := fun a b ⟨x, h1, h2⟩ => ⟨x, h1, link_symm h2⟩
  have b1 := b0.add (N' := fun x => x = 10 ∨ x = 11) sy rfl ⟨7, (l1 7).2 (by simp), r1⟩ (fun x => Iff.rfl)
  refine b1.add sy (a := 11) (b := 12) (Or.inr rfl) ⟨8, (l1 8).2 (by simp), r2⟩ (fun x => ?_)
  rw [n1]; simp; tauto

end Pymnet
