import Verif.Props.IsoPlex2

/-! C166: isomorphism is an equivalence relation, and coarser than equality. -/

set_option linter.unusedSectionVars false

namespace Pymnet

open Py MPlex

variable {α W : Type} [DecidableEq α] [LinearOrder α] [DecidableEq W] {d : Nat} {allowed : Option (List Nat)}

/-- Internal: existence of isomorphisms decides the outcome. -/
theorem iso_iff_core {v w : View α W} {S S' : Nat → α → Prop} {NL NL' : List α → Prop} {L L' : List α → List α → Prop}
    (h : Shows v d S NL L) (h' : Shows w d S' NL' L') (hd : 1 ≤ d) (hal : ∀ a ∈ Spec.mayChange d allowed, a ≤ d)
    {match? : CGraph → CGraph → Option (Dict Nat Nat)} (hF : Spec.FindsIso match?) :
    isIsomorphic match? v w allowed = .ok true ↔ ∃ f, Spec.Isomorphism d (Spec.mayChange d allowed) S NL L S' NL' L' f := by
  have hc := iso_core h h' hd hal hF true
  refine ⟨fun ht => ?_, fun hi => (hc.1 hi).1⟩
  by_contra hni
  have := hc.2 hni
  split at this <;> rw [this.1] at ht <;> cases ht

/-- Internal: the laws for everything that shows a network. -/
theorem equiv_core {v₁ v₂ v₃ : View α W} {S₁ S₂ S₃ : Nat → α → Prop} {NL₁ NL₂ NL₃ : List α → Prop} {L₁ L₂ L₃ : List α → List α → Prop}
    (h₁ : Shows v₁ d S₁ NL₁ L₁) (h₂ : Shows v₂ d S₂ NL₂ L₂) (h₃ : Shows v₃ d S₃ NL₃ L₃) (hd : 1 ≤ d)
    (hal : ∀ a ∈ Spec.mayChange d allowed, a ≤ d) {m₁ m₂ m₃ : CGraph → CGraph → Option (Dict Nat Nat)} (hF₁ : Spec.FindsIso m₁)
    (hF₂ : Spec.FindsIso m₂) (hF₃ : Spec.FindsIso m₃) :
    isIsomorphic m₁ v₁ v₁ allowed = .ok true ∧ isIsomorphic m₁ v₁ v₂ allowed = isIsomorphic m₂ v₂ v₁ allowed ∧
    (isIsomorphic m₁ v₁ v₂ allowed = .ok true → isIsomorphic m₂ v₂ v₃ allowed = .ok true → isIsomorphic m₃ v₁ v₃ allowed = .ok true) := by
  obtain ⟨canon, hC⟩ := exists_canonical
  obtain ⟨c₁, c₂, e₁, e₂, i12⟩ := invariant_core h₁ h₂ hd hal hC
  obtain ⟨c₃, c₃', e₃, e₃', i33⟩ := invariant_core h₃ h₃ hd hal hC
  have i11 : ∃ f, Spec.Isomorphism d (Spec.mayChange d allowed) S₁ NL₁ L₁ S₁ NL₁ L₁ f := by
    obtain ⟨c, c', q1, q2, q⟩ := invariant_core h₁ h₁ hd hal hC
    rw [q1] at q2; cases q2
    exact q.1 rfl
  have i21 : c₂ = c₁ ↔ ∃ f, Spec.Isomorphism d (Spec.mayChange d allowed) S₂ NL₂ L₂ S₁ NL₁ L₁ f := by
    obtain ⟨c, c', q1, q2, q⟩ := invariant_core h₂ h₁ hd hal hC
    rw [e₂] at q1; cases q1
    rw [e₁] at q2; cases q2
    exact q
  have i23 : c₂ = c₃ ↔ ∃ f, Spec.Isomorphism d (Spec.mayChange d allowed) S₂ NL₂ L₂ S₃ NL₃ L₃ f := by
    obtain ⟨c, c', q1, q2, q⟩ := invariant_core h₂ h₃ hd hal hC
    rw [e₂] at q1; cases q1
    rw [e₃] at q2; cases q2
    exact q
  have i13 : c₁ = c₃ ↔ ∃ f, Spec.Isomorphism d (Spec.mayChange d allowed) S₁ NL₁ L₁ S₃ NL₃ L₃ f := by
    obtain ⟨c, c', q1, q2, q⟩ := invariant_core h₁ h₃ hd hal hC
    rw [e₁] at q1; cases q1
    rw [e₃] at q2; cases q2
    exact q
  refine ⟨(iso_iff_core h₁ h₁ hd hal hF₁).2 i11, ?_, fun a b => ?_⟩
  · by_cases hc : c₁ = c₂
    · rw [(iso_iff_core h₁ h₂ hd hal hF₁).2 (i12.1 hc), (iso_iff_core h₂ h₁ hd hal hF₂).2 (i21.1 hc.symm)]
    · have a := (iso_core h₁ h₂ hd hal hF₁ true).2 fun h => hc (i12.2 h)
      have b := (iso_core h₂ h₁ hd hal hF₂ true).2 fun h => hc (i21.2 h).symm
      by_cases hk : Spec.mayChange d allowed = [] ∨ {c | ∃ nl, NL₁ nl ∧ c = Spec.pickFixed d (Spec.mayChange d allowed) nl}.ncard =
          {c | ∃ nl, NL₂ nl ∧ c = Spec.pickFixed d (Spec.mayChange d allowed) nl}.ncard
      · rw [if_pos hk] at a
        rw [if_pos (hk.imp id Eq.symm)] at b
        rw [a.1, b.1]
      · rw [if_neg hk] at a
        rw [if_neg fun h => hk (h.imp id Eq.symm)] at b
        rw [a.1, b.1]
  · have a := i12.2 ((iso_iff_core h₁ h₂ hd hal hF₁).1 a)
    have b := i23.2 ((iso_iff_core h₂ h₃ hd hal hF₂).1 b)
    exact (iso_iff_core h₁ h₃ hd hal hF₃).2 (i13.1 (a.trans b))

section general

variable {n₁ n₂ n₃ : MNet α W} {z₁ z₂ z₃ : W} {al₁ al₂ al₃ : Bool} {S₁ S₂ S₃ : Nat → α → Prop} {NL₁ NL₂ NL₃ : List α → Prop}
  {R₁ R₂ R₃ : List α → List α → W}

/-- **C166, general networks.** For undirected networks with the same number of aspects, at least one, and every choice of aspects that may
change: a network is isomorphic to itself, `is_isomorphic` has the same outcome (also if it is an exception) if its arguments are exchanged,
and it is transitive, even if each call uses another correct backend. -/
theorem C166_equivalence (h₁ : Spec.Looks n₁ d z₁ false al₁ S₁ NL₁ R₁) (h₂ : Spec.Looks n₂ d z₂ false al₂ S₂ NL₂ R₂)
    (h₃ : Spec.Looks n₃ d z₃ false al₃ S₃ NL₃ R₃) (hd : 1 ≤ d) (hal : ∀ a ∈ Spec.mayChange d allowed, a ≤ d)
    {m₁ m₂ m₃ : CGraph → CGraph → Option (Dict Nat Nat)} (hF₁ : Spec.FindsIso m₁) (hF₂ : Spec.FindsIso m₂) (hF₃ : Spec.FindsIso m₃) :
    isIsomorphic m₁ n₁.view n₁.view allowed = .ok true ∧
    isIsomorphic m₁ n₁.view n₂.view allowed = isIsomorphic m₂ n₂.view n₁.view allowed ∧
    (isIsomorphic m₁ n₁.view n₂.view allowed = .ok true → isIsomorphic m₂ n₂.view n₃.view allowed = .ok true →
      isIsomorphic m₃ n₁.view n₃.view allowed = .ok true) :=
  equiv_core (looks_shows h₁) (looks_shows h₂) (looks_shows h₃) hd hal hF₁ hF₂ hF₃

end general

/-- Internal: the identity. -/
theorem iso_id {A : List Nat} {S S' : Nat → α → Prop} {NL NL' : List α → Prop} {L L' : List α → List α → Prop}
    (hS : ∀ k ≤ d, ∀ x, S k x ↔ S' k x) (hN : ∀ u, NL u ↔ NL' u) (hL : ∀ u v, NL u → NL v → (L u v ↔ L' u v)) :
    Spec.Isomorphism d A S NL L S' NL' L' (fun _ x => x) := by
  have ap : ∀ u : List α, Spec.applyTo (fun _ x => x) u = u := fun u => by
    unfold Spec.applyTo
    apply List.ext_getElem?
    intro i
    rw [List.getElem?_mapIdx]
    rcases u[i]? with _ | x <;> rfl
  refine ⟨fun _ _ _ _ => rfl, fun k hk _ => ⟨fun x hx => (hS k hk x).1 hx, fun _ _ _ _ h => h, fun x hx => ⟨x, (hS k hk x).2 hx, rfl⟩⟩,
    fun u => ?_, fun u v hu hv => ?_⟩
  · rw [← hN]
    exact ⟨fun h => ⟨u, h, (ap u).symm⟩, fun ⟨v, hv, e⟩ => by rw [e, ap]; exact hv⟩
  · rw [ap, ap]; exact hL u v hu hv

/-- **C166, equal networks are isomorphic.** If `==` of two undirected networks with the same alignment and at least one aspect is `True`, they are
isomorphic, whatever may change, for every correct backend. -/
theorem C166_equal (hd : 1 ≤ d) (hal : ∀ a ∈ Spec.mayChange d allowed, a ≤ d) {d' : Nat} {z z' : W} {al : Bool} {ops ops' : List (Op α W)}
    (he : (after d z false al ops).eq (after d' z' false al ops') = .ok true) (hd' : 1 ≤ d') {match? : CGraph → CGraph → Option (Dict Nat Nat)}
    (hF : Spec.FindsIso match?) :
    isIsomorphic match? (after d z false al ops).view (after d' z' false al ops').view allowed = .ok true := by
  obtain ⟨b, e, hb⟩ := C14_eq_partial d d' z z' false false al ops ops'
    (or_congr (by omega) Iff.rfl)
  rw [he] at e
  cases e
  obtain ⟨-, rfl, rfl, s1, s2, s3, s4⟩ := hb.1 rfl
  have l := network_looks d z false al ops
  have l' := network_looks d z false al ops'
  have hS : ∀ k ≤ d, ∀ x, Spec.HasName d al ops k x ↔ Spec.HasName d al ops' k x := by
    intro k hk x
    obtain ⟨A, a1, -, a3⟩ := l.layers k hk
    obtain ⟨B, b1, -, b3⟩ := l'.layers k hk
    rw [← a3, ← b3]
    exact s2 k A B a1 b1 x
  have hN : ∀ u, Spec.HasNodeLayerG d al ops u ↔ Spec.HasNodeLayerG d al ops' u := by
    intro u
    cases al with
    | true =>
      unfold Spec.HasNodeLayerG Spec.AllNodeLayers
      rw [if_pos (.inr rfl), if_pos (.inr rfl)]
      refine and_congr_right fun hu => ?_
      have hk : ∀ i x, u[i]? = some x → i ≤ d := fun i x h => by
        have := (List.getElem?_eq_some_iff.1 h).1; omega
      exact forall_congr' fun i => forall_congr' fun x => ⟨fun h hx => (hS i (hk i x hx) x).1 (h hx), fun h hx => (hS i (hk i x hx) x).2 (h hx)⟩
    | false =>
      have hlen : ∀ {o : List (Op α W)}, Spec.HasNodeLayerG d false o u → ∃ n s, u = n :: s ∧ s.length = d := by
        intro o h
        have := (network_looks d z false false o).nl_length h
        cases u with
        | nil => simp at this
        | cons n s => exact ⟨n, s, rfl, by simpa using this⟩
      have main : ∀ n s, s.length = d → (Spec.HasNodeLayerG d false ops (n :: s) ↔ Spec.HasNodeLayerG d false ops' (n :: s)) := by
        intro n s hs
        rw [← l.nodeLayers.2, ← l'.nodeLayers.2, ← C15_layer_nodes d hd z false ops n s hs, ← C15_layer_nodes d hd z false ops' n s hs]
        exact s3 _ _
      constructor
      · intro h; obtain ⟨n, s, rfl, hs⟩ := hlen h; exact (main n s hs).1 h
      · intro h; obtain ⟨n, s, rfl, hs⟩ := hlen h; exact (main n s hs).2 h
  refine (iso_iff_core (looks_shows l) (looks_shows l') hd hal hF).2 ⟨_, iso_id hS hN fun u v _ _ => ?_⟩
  rw [s4 u v]

section plex

variable [Zero W] [LawfulIntNames α]

/-- **C166, multiplex networks.** The same for undirected multiplex networks with missing value 0 and categorical or ordinal couplings that are
node-aligned, or have one aspect with categorical couplings, without self-links written through an intra-layer network. -/
theorem C166_multiplex_equivalence {cs₁ cs₂ cs₃ : List (Coupling α W)} {al₁ al₂ al₃ : Bool} {ops₁ ops₂ ops₃ : List (POp α W)}
    (hU₁ : Spec.Usable cs₁ al₁ ops₁) (hs₁ : Spec.NoIntraSelf ops₁) (ha₁ : al₁ = true ∨ ∃ w, cs₁ = [.categorical w])
    (hU₂ : Spec.Usable cs₂ al₂ ops₂) (hs₂ : Spec.NoIntraSelf ops₂) (ha₂ : al₂ = true ∨ ∃ w, cs₂ = [.categorical w])
    (hU₃ : Spec.Usable cs₃ al₃ ops₃) (hs₃ : Spec.NoIntraSelf ops₃) (ha₃ : al₃ = true ∨ ∃ w, cs₃ = [.categorical w])
    (h12 : cs₂.length = cs₁.length) (h13 : cs₃.length = cs₁.length) (haa : ∀ a ∈ Spec.mayChange cs₁.length allowed, a ≤ cs₁.length)
    {m₁ m₂ m₃ : CGraph → CGraph → Option (Dict Nat Nat)} (hF₁ : Spec.FindsIso m₁) (hF₂ : Spec.FindsIso m₂) (hF₃ : Spec.FindsIso m₃) :
    let v₁ := (afterP cs₁ false 0 al₁ ops₁).view
    let v₂ := (afterP cs₂ false 0 al₂ ops₂).view
    let v₃ := (afterP cs₃ false 0 al₃ ops₃).view
    isIsomorphic m₁ v₁ v₁ allowed = .ok true ∧ isIsomorphic m₁ v₁ v₂ allowed = isIsomorphic m₂ v₂ v₁ allowed ∧
    (isIsomorphic m₁ v₁ v₂ allowed = .ok true → isIsomorphic m₂ v₂ v₃ allowed = .ok true → isIsomorphic m₃ v₁ v₃ allowed = .ok true) := by
  have k₂ := plex_shows hU₂ hs₂ ha₂
  have k₃ := plex_shows hU₃ hs₃ ha₃
  rw [h12] at k₂
  rw [h13] at k₃
  exact equiv_core (plex_shows hU₁ hs₁ ha₁) k₂ k₃ (List.length_pos_iff.2 hU₁.some_aspect) haa hF₁ hF₂ hF₃

/-- **C166, equal multiplex networks are isomorphic.** -/
theorem C166_multiplex_equal {cs cs' : List (Coupling α W)} {al al' : Bool} {ops ops' : List (POp α W)}
    (hU : Spec.Usable cs al ops) (hs : Spec.NoIntraSelf ops) (ha : al = true ∨ ∃ w, cs = [.categorical w])
    (hU' : Spec.Usable cs' al' ops') (hs' : Spec.NoIntraSelf ops')
    (haa : ∀ a ∈ Spec.mayChange cs.length allowed, a ≤ cs.length)
    (he : (afterP cs false 0 al ops).eq (afterP cs' false 0 al' ops') = .ok true) {match? : CGraph → CGraph → Option (Dict Nat Nat)}
    (hF : Spec.FindsIso match?) :
    isIsomorphic match? (afterP cs false 0 al ops).view (afterP cs' false 0 al' ops').view allowed = .ok true := by
  have nn : ∀ {cs : List (Coupling α W)} {al : Bool} {ops : List (POp α W)}, Spec.Usable cs al ops → ∀ c ∈ cs, Spec.NotNet c := by
    intro cs al ops hU c hc m e
    obtain ⟨w, -, h | h⟩ := hU.kind _ hc <;> rw [h] at e <;> cases e
  obtain ⟨b, e, hb⟩ := C51_eq hU.some_aspect hU'.some_aspect (nn hU) (nn hU') false false 0 0 al al' ops ops'
  rw [he] at e
  cases e
  obtain ⟨rfl, -, -, rfl, same⟩ := hb.1 rfl
  have hcs := hU.some_aspect
  refine (iso_iff_core (plex_shows hU hs ha) (plex_shows hU' hs' ha) (List.length_pos_iff.2 hcs) haa hF).2
    ⟨_, iso_id (fun k hk x => ?_) same.nodeLayers fun u v hu hv => ?_⟩
  · unfold Spec.HasNameP
    by_cases hk : k = 0
    · rw [if_pos hk, if_pos hk]; exact same.nodes x
    · rw [if_neg hk, if_neg hk]; exact same.layers k x (by omega)
  · rw [(after_weight hcs false al ops hU hu hv).2,
      (after_weight hcs false al ops' hU' ((same.nodeLayers u).1 hu) ((same.nodeLayers v).1 hv)).2]
    obtain ⟨i, s, rfl, hl, -, hn⟩ := hasNodeLayer_names hu
    have hs := same.links s
    refine exists_congr fun w => or_congr ?_ Iff.rfl
    constructor
    · rintro ⟨i', j, s', e1, e2, hij, hw, h0⟩
      obtain ⟨rfl, rfl⟩ := List.cons.inj e1
      exact ⟨_, j, _, rfl, e2, hij, by rw [hw]; exact hs _ _ ⟨s, rfl, hl, hn⟩, h0⟩
    · rintro ⟨i', j, s', e1, e2, hij, hw, h0⟩
      obtain ⟨rfl, rfl⟩ := List.cons.inj e1
      exact ⟨_, j, _, rfl, e2, hij, by rw [hw]; exact (hs _ _ ⟨s, rfl, hl, hn⟩).symm, h0⟩

end plex

/-! ### concrete cases -/

/-- a network, one with other names of nodes, and one with other names of layers; every layer carries its own nodes -/
example {m₁ m₂ m₃ : CGraph → CGraph → Option (Dict Nat Nat)} (hF₁ : Spec.FindsIso m₁) (hF₂ : Spec.FindsIso m₂) (hF₃ : Spec.FindsIso m₃) :
    let a := after 1 (0 : Int) false false [.setItem [1, 2, 10, 11] (5 : Int), .addNode 3 (some (.el (10 : Int)))]
    let b := after 1 (0 : Int) false false [.setItem [2, 1, 10, 11] (5 : Int), .addNode 3 (some (.el (10 : Int)))]
    let c := after 1 (0 : Int) false false [.setItem [2, 1, 11, 10] (5 : Int), .addNode 3 (some (.el (11 : Int)))]
    isIsomorphic m₁ a.view a.view none = .ok true ∧ isIsomorphic m₁ a.view b.view none = isIsomorphic m₂ b.view a.view none ∧
    (isIsomorphic m₁ a.view b.view none = .ok true → isIsomorphic m₂ b.view c.view none = .ok true →
      isIsomorphic m₃ a.view c.view none = .ok true) :=
  C166_equivalence (network_looks 1 0 false false _) (network_looks 1 0 false false _) (network_looks 1 0 false false _) (by omega)
    (fun a ha => by simp [Spec.mayChange] at ha; omega) hF₁ hF₂ hF₃

/-- the same network in two ways -/
example {match? : CGraph → CGraph → Option (Dict Nat Nat)} (hF : Spec.FindsIso match?) :
    isIsomorphic match? (after 1 (0 : Int) false false [.setItem [1, 2, 10, 11] (5 : Int), .addNode 3 (some (.el (10 : Int)))]).view
      (after 1 (0 : Int) false false [.addNode 3 (some (.el 10)), .setItem [2, 1, 11, 10] 4, .setItem [2, 1, 11, 10] 5]).view (some [0]) = .ok true :=
  C166_equal (by omega) (fun a ha => by simp [Spec.mayChange] at ha; omega) (by decide +kernel) (by omega) hF

private def exP : List (POp Int Int) := [.setItem [1, 2, 10] 5, .setItem [2, 3, 20] 7]
private def exQ : List (POp Int Int) := [.setItem [3, 2, 20] 7, .setItem [2, 1, 10] 4, .setItem [1, 2, 10] 5]

/-- the same multiplex network in two ways -/
example {match? : CGraph → CGraph → Option (Dict Nat Nat)} (hF : Spec.FindsIso match?) :
    isIsomorphic match? (afterP [.categorical (1 : Int)] false 0 false exP).view (afterP [.categorical (1 : Int)] false 0 false exQ).view none =
      .ok true := by
  have u : ∀ ops, Spec.Usable [.categorical (1 : Int)] false (ops : List (POp Int Int)) :=
    fun ops => ⟨by simp, by simp, by rintro (_ | d) w x h <;> simp at h⟩
  exact C166_multiplex_equal (u _) (by intro L i w h; simp [exP] at h) (Or.inr ⟨1, rfl⟩) (u _) (by intro L i w h; simp [exQ] at h)
    (fun a ha => by simp [Spec.mayChange] at ha; simp; omega) (by decide +kernel) hF

/-- a node-aligned multiplex network and one that is not node-aligned -/
example {m₁ m₂ m₃ : CGraph → CGraph → Option (Dict Nat Nat)} (hF₁ : Spec.FindsIso m₁) (hF₂ : Spec.FindsIso m₂) (hF₃ : Spec.FindsIso m₃) :
    isIsomorphic m₁ (afterP [.categorical (1 : Int)] false 0 true exP).view (afterP [.categorical (1 : Int)] false 0 false exQ).view (some [0]) =
      isIsomorphic m₂ (afterP [.categorical (1 : Int)] false 0 false exQ).view (afterP [.categorical (1 : Int)] false 0 true exP).view (some [0]) := by
  have u : ∀ al ops, Spec.Usable [.categorical (1 : Int)] al (ops : List (POp Int Int)) :=
    fun al ops => ⟨by simp, by simp, by rintro (_ | d) w x h <;> simp at h⟩
  exact (C166_multiplex_equivalence (u true exP) (by intro L i w h; simp [exP] at h) (Or.inl rfl) (u false exQ)
    (by intro L i w h; simp [exQ] at h) (Or.inr ⟨1, rfl⟩) (u false exQ) (by intro L i w h; simp [exQ] at h) (Or.inr ⟨1, rfl⟩) rfl rfl
    (fun a ha => by simp [Spec.mayChange] at ha; simp; omega) hF₁ hF₂ hF₃).2.1

end Pymnet
