import Verif.Proofs.IsomCore
import Verif.Props.Diagnostics

/-! Properties C41, C55–C57: isomorphisms of multilayer networks. -/

set_option linter.unusedSectionVars false
set_option linter.unusedSimpArgs false

namespace Pymnet

open Py MPlex

variable {α W : Type} [DecidableEq α] [DecidableEq W] [LinearOrder α]

variable {m m' : MNet α W} {d : Nat} {z z' : W} {al al' : Bool} {S S' : Nat → α → Prop} {NL NL' : List α → Prop}
  {R R' : List α → List α → W} {allowed : Option (List Nat)}

/-- The nodes (aspect 0) and elementary layers of a multiplex network after a history. -/
def Spec.HasNameP (aspects : Nat) (aligned : Bool) (ops : List (POp α W)) (k : Nat) (x : α) : Prop :=
  if k = 0 then Spec.Happened (Spec.NamesNodeP aspects aligned x) ops else ∃ op ∈ ops, Spec.NamesLayerP aspects aligned k x op

theorem looks_shows (h : Spec.Looks m d z false al S NL R) : Shows m.view d S NL (fun u v => R u v ≠ z) := by
  refine ⟨⟨m.reads, h.sound, fun u w hu hw => ?_⟩, h.directed_eq, h.aspects_eq, fun a ha x => h.inS ha x,
    ⟨_, rfl, h.nodeLayers.2⟩⟩
  rw [h.reads_eq (h.nl_length hu) (h.nl_length hw), show m.view.noEdge = z from h.noEdge_eq]

theorem plex_shows [Zero W] [LawfulIntNames α] {cs : List (Coupling α W)} {aligned : Bool} {ops : List (POp α W)}
    (hU : Spec.Usable cs aligned ops) (hs : Spec.NoIntraSelf ops) (hal : aligned = true ∨ ∃ w, cs = [.categorical w]) :
    Shows (afterP cs false 0 aligned ops).view cs.length (Spec.HasNameP cs.length aligned ops)
      (Spec.HasNodeLayer cs.length aligned ops) (fun u v => Spec.weight cs false aligned ops u v ≠ 0) := by
  have hcs := hU.some_aspect
  have hpar := after_params hcs false 0 aligned ops
  obtain ⟨l, l1, -, l3⟩ := after_nodeLayers hcs false 0 aligned ops
  obtain ⟨s0, s1, -⟩ := after_spec hcs false 0 aligned ops
  refine ⟨⟨_, main_sound (directed := false) hU hs hal, fun u w hu hw => ?_⟩, hpar.2.1, hpar.1, fun a ha x => ?_,
    ⟨l, l1, l3⟩⟩
  · rw [main_R hU hu hw, show (afterP cs false 0 aligned ops).view.noEdge = 0 from hpar.2.2.1]
  · unfold Spec.HasNameP
    rcases Nat.eq_zero_or_pos a with rfl | hpos
    · rw [if_pos rfl]; exact s0 x
    · rw [if_neg (by omega)]; exact s1 a x hpos

/-! ### C41 -/

/-- **C41** (without the claim that the call always returns, see `C41_false`). For undirected networks with at
least one aspect, `is_isomorphic` returns `True` exactly if there is an isomorphism; if it returns `False` there is
none, and if nothing may change, or the fixed parts of the node-layers take the same number of values in both networks,
it does return. -/
theorem C41_is_isomorphic_partial (h : Spec.Looks m d z false al S NL R) (h' : Spec.Looks m' d z' false al' S' NL' R')
    (hd : 1 ≤ d) (hal : ∀ a ∈ Spec.mayChange d allowed, a ≤ d)
    {match? : CGraph → CGraph → Option (Dict Nat Nat)} (hF : Spec.FindsIso match?) :
    let A := Spec.mayChange d allowed
    let Iso := ∃ f, Spec.Isomorphism d A S NL (fun u v => R u v ≠ z) S' NL' (fun u v => R' u v ≠ z') f
    (isIsomorphic match? m.view m'.view allowed = .ok true ↔ Iso) ∧
    (isIsomorphic match? m.view m'.view allowed = .ok false → ¬ Iso) ∧
    (A = [] ∨ {c | ∃ nl, NL nl ∧ c = Spec.pickFixed d A nl}.ncard = {c | ∃ nl, NL' nl ∧ c = Spec.pickFixed d A nl}.ncard →
      ¬ Iso → isIsomorphic match? m.view m'.view allowed = .ok false) := by
  have hc := iso_core (looks_shows h) (looks_shows h') hd hal hF true
  refine ⟨⟨fun ht => ?_, fun hi => (hc.1 hi).1⟩, fun hf hi => ?_, fun hk hni => ?_⟩
  · by_contra hni
    have := hc.2 hni
    split at this <;> rw [this.1] at ht <;> cases ht
  · rw [(hc.1 hi).1] at hf; cases hf
  · have := hc.2 hni
    rw [if_pos hk] at this
    exact this.1

/-- **C41**, the remaining case: something may change and the fixed parts of the node-layers take different numbers of
values. The networks are then not isomorphic, but `is_isomorphic` raises `AssertionError`. -/
theorem C41_raises (h : Spec.Looks m d z false al S NL R) (h' : Spec.Looks m' d z' false al' S' NL' R')
    (hd : 1 ≤ d) (hal : ∀ a ∈ Spec.mayChange d allowed, a ≤ d)
    {match? : CGraph → CGraph → Option (Dict Nat Nat)} (hF : Spec.FindsIso match?)
    (hne : Spec.mayChange d allowed ≠ [])
    (hk : {c | ∃ nl, NL nl ∧ c = Spec.pickFixed d (Spec.mayChange d allowed) nl}.ncard ≠
      {c | ∃ nl, NL' nl ∧ c = Spec.pickFixed d (Spec.mayChange d allowed) nl}.ncard) :
    (¬ ∃ f, Spec.Isomorphism d (Spec.mayChange d allowed) S NL (fun u v => R u v ≠ z) S' NL' (fun u v => R' u v ≠ z') f) ∧
    isIsomorphic match? m.view m'.view allowed = .error .assertionError := by
  have hni : ¬ ∃ f, Spec.Isomorphism d (Spec.mayChange d allowed) S NL (fun u v => R u v ≠ z) S' NL'
      (fun u v => R' u v ≠ z') f := by
    rintro ⟨f, hf⟩
    apply hk
    have key : ∀ u, Spec.pickFixed d (Spec.mayChange d allowed) (Spec.applyTo f u) =
        Spec.pickFixed d (Spec.mayChange d allowed) u := fun u => pick_applyTo hf.fixed u
    congr 1
    ext c
    constructor
    · rintro ⟨u, hu, rfl⟩; exact ⟨Spec.applyTo f u, (hf.nodeLayers _).2 ⟨u, hu, rfl⟩, (key u).symm⟩
    · rintro ⟨u', hu', rfl⟩
      obtain ⟨u, hu, rfl⟩ := (hf.nodeLayers u').1 hu'
      exact ⟨u, hu, key u⟩
  have := (iso_core (looks_shows h) (looks_shows h') hd hal hF true).2 hni
  rw [if_neg (by rintro (h | h); exacts [hne h, hk h])] at this
  exact ⟨hni, this.1⟩

/-- **C41**, multiplex networks. -/
theorem C41_multiplex_partial [Zero W] [LawfulIntNames α] {cs cs' : List (Coupling α W)} {aligned aligned' : Bool}
    {ops ops' : List (POp α W)} (hU : Spec.Usable cs aligned ops) (hs : Spec.NoIntraSelf ops)
    (hal : aligned = true ∨ ∃ w, cs = [.categorical w]) (hU' : Spec.Usable cs' aligned' ops') (hs' : Spec.NoIntraSelf ops')
    (hal' : aligned' = true ∨ ∃ w, cs' = [.categorical w]) (hcc : cs'.length = cs.length)
    (haa : ∀ a ∈ Spec.mayChange cs.length allowed, a ≤ cs.length)
    {match? : CGraph → CGraph → Option (Dict Nat Nat)} (hF : Spec.FindsIso match?) :
    let A := Spec.mayChange cs.length allowed
    let Iso := ∃ f, Spec.Isomorphism cs.length A (Spec.HasNameP cs.length aligned ops) (Spec.HasNodeLayer cs.length aligned ops)
      (fun u v => Spec.weight cs false aligned ops u v ≠ 0) (Spec.HasNameP cs.length aligned' ops')
      (Spec.HasNodeLayer cs.length aligned' ops') (fun u v => Spec.weight cs' false aligned' ops' u v ≠ 0) f
    (isIsomorphic match? (afterP cs false 0 aligned ops).view (afterP cs' false 0 aligned' ops').view allowed = .ok true ↔ Iso) ∧
    (isIsomorphic match? (afterP cs false 0 aligned ops).view (afterP cs' false 0 aligned' ops').view allowed = .ok false →
      ¬ Iso) ∧
    (A = [] ∨ {c | ∃ nl, Spec.HasNodeLayer cs.length aligned ops nl ∧ c = Spec.pickFixed cs.length A nl}.ncard =
        {c | ∃ nl, Spec.HasNodeLayer cs.length aligned' ops' nl ∧ c = Spec.pickFixed cs.length A nl}.ncard →
      ¬ Iso → isIsomorphic match? (afterP cs false 0 aligned ops).view (afterP cs' false 0 aligned' ops').view allowed =
        .ok false) := by
  have h' := plex_shows hU' hs' hal'
  rw [hcc] at h'
  have hc := iso_core (plex_shows hU hs hal) h' (List.length_pos_iff.2 hU.some_aspect) haa hF true
  refine ⟨⟨fun ht => ?_, fun hi => (hc.1 hi).1⟩, fun hf hi => ?_, fun hk hni => ?_⟩
  · by_contra hni
    have := hc.2 hni
    split at this <;> rw [this.1] at ht <;> cases ht
  · rw [(hc.1 hi).1] at hf; cases hf
  · have := hc.2 hni
    rw [if_pos hk] at this
    exact this.1

/-- **C41 is false in general.** One layer against two, only the nodes may change: the answer is an exception. -/
theorem C41_false : ∃ ops ops' : List (Op Nat Int), ∀ match? : CGraph → CGraph → Option (Dict Nat Nat),
    isIsomorphic match? (after 1 0 false true ops).view (after 1 0 false true ops').view (some [0]) =
      .error .assertionError :=
  ⟨[.setItem [1, 2, 10] 1], [.setItem [1, 2, 10] 1, .addLayer 11 1], fun _ => by rfl⟩

/-- **C41 is false for networks without aspects**: the two ends of a link are looked up under different names, and the
graph has four vertices for two nodes (besides the auxiliary ones), two of them without a colour. -/
theorem C41_false_monoplex : ∃ (ops : List (Op Nat Int)) (A : AuxGraph Nat),
    (after 0 0 false true ops).view.auxGraph none = .ok A ∧ (after 0 0 false true ops).view.nodeLayers = .ok [[1], [2]] ∧
      A.nodemap.length = 4 ∧ ¬ Spec.Colored A.graph := by
  refine ⟨[.setItem [1, 2] 1], _, rfl, by decide, by decide, ?_⟩
  intro h
  obtain ⟨c, hc⟩ := h 2 (by decide)
  have hn : some (none : Option Nat) = some (some c) := hc
  cases hn

/-! ### the assumptions on the backend can be met -/

theorem Spec.ColorIso.refl (g : CGraph) : Spec.ColorIso g g id :=
  ⟨Set.bijOn_id _, fun _ _ => rfl, fun _ _ _ _ => Iff.rfl⟩

theorem Spec.ColorIso.trans {g h k : CGraph} {φ ψ : Nat → Nat} (h1 : Spec.ColorIso g h φ) (h2 : Spec.ColorIso h k ψ) :
    Spec.ColorIso g k (ψ ∘ φ) :=
  ⟨h2.bij.comp h1.bij, fun i hi => (h2.color _ (h1.bij.mapsTo hi)).trans (h1.color i hi),
    fun i hi j hj => (h1.adj i hi j hj).trans (h2.adj _ (h1.bij.mapsTo hi) _ (h1.bij.mapsTo hj))⟩

theorem Spec.ColorIso.symm {g h : CGraph} {φ : Nat → Nat} (h1 : Spec.ColorIso g h φ) :
    Spec.ColorIso h g (Function.invFunOn φ {i | i ∈ Dict.keys g.nodes}) := by
  have hinv := h1.bij.invOn_invFunOn
  have hb := Set.BijOn.symm hinv.symm h1.bij
  refine ⟨hb, fun i hi => ?_, fun i hi j hj => ?_⟩
  · rw [← h1.color _ (hb.mapsTo hi), hinv.2 hi]
  · rw [h1.adj _ (hb.mapsTo hi) _ (hb.mapsTo hj), hinv.2 hi, hinv.2 hj]

theorem get_map_self {l : List Nat} (φ : Nat → Nat) {i : Nat} (hi : i ∈ l) :
    Dict.get (l.map fun i => (i, φ i)) i = some (φ i) := by
  induction l with
  | nil => cases hi
  | cons a t ih =>
    rw [List.map_cons, Dict.get_cons]
    by_cases h : a = i
    · subst h; simp
    · rw [if_neg h]
      exact ih ((List.mem_cons.1 hi).resolve_left fun e => h e.symm)

open Classical in
theorem exists_findsIso : ∃ match?, Spec.FindsIso match? := by
  refine ⟨fun g h => if e : ∃ φ, Spec.ColorIso g h φ then some ((Dict.keys g.nodes).map fun i => (i, e.choose i)) else none,
    fun g h _ _ => ⟨fun P hP => ?_, fun hn => ?_⟩⟩
  · dsimp only at hP
    split at hP
    · rename_i e
      cases hP
      exact ⟨e.choose, e.choose_spec, fun i hi => get_map_self _ hi⟩
    · cases hP
  · dsimp only at hn
    split at hn
    · cases hn
    · assumption

theorem exists_canonical : ∃ canon : CGraph → (CGraph → Prop), Spec.Canonical canon := by
  refine ⟨fun g h => ∃ φ, Spec.ColorIso g h φ, fun g h _ _ => ⟨fun e => ?_, ?_⟩⟩
  · have := congrFun e h
    dsimp only at this
    rw [this]; exact ⟨_, Spec.ColorIso.refl h⟩
  · rintro ⟨φ, hφ⟩
    funext k
    exact propext ⟨fun ⟨ψ, hψ⟩ => ⟨_, hφ.symm.trans hψ⟩, fun ⟨ψ, hψ⟩ => ⟨_, hφ.trans hψ⟩⟩

open Classical in
theorem exists_findsGens : ∃ gens, Spec.FindsGens gens := by
  refine ⟨fun g => ((product ((Dict.keys g.nodes).map fun _ => Dict.keys g.nodes)).map fun l => (Dict.keys g.nodes).zip l).filter
    fun P => ∃ φ, Spec.ColorIso g g φ ∧ ∀ i ∈ Dict.keys g.nodes, Dict.get P i = some (φ i), fun g _ => ⟨fun P hP => ?_, ?_⟩⟩
  · simp only [List.mem_filter, decide_eq_true_eq] at hP
    exact hP.2
  · intro φ hφ
    have hz : (Dict.keys g.nodes).zip ((Dict.keys g.nodes).map φ) = (Dict.keys g.nodes).map fun i => (i, φ i) := by
      induction Dict.keys g.nodes with
      | nil => rfl
      | cons a t ih => simp [ih]
    refine ⟨[(Dict.keys g.nodes).zip ((Dict.keys g.nodes).map φ)], ?_, ?_⟩
    · intro P hP
      rw [List.mem_singleton.1 hP]
      simp only [List.mem_filter, decide_eq_true_eq, List.mem_map]
      refine ⟨⟨(Dict.keys g.nodes).map φ, ?_, rfl⟩, φ, hφ, fun i hi => by rw [hz]; exact get_map_self φ hi⟩
      have : ∀ l : List Nat, (∀ i ∈ l, φ i ∈ Dict.keys g.nodes) → l.map φ ∈ product (l.map fun _ => Dict.keys g.nodes) := by
        intro l
        induction l with
        | nil => intro _; simp [product]
        | cons a t ih =>
          intro hl
          rw [Py.mem_product]
          have := ih fun i hi => hl i (by simp [hi])
          rw [Py.mem_product] at this
          exact List.Forall₂.cons (hl a (by simp)) this
      exact this _ fun i hi => hφ.bij.mapsTo hi
    · intro i hi
      simp only [List.foldr_cons, List.foldr_nil]
      rw [hz, get_map_self φ hi]; rfl

/-! ### C55 -/

/-- **C55.** If the networks are isomorphic, `get_isomorphism` returns one dictionary per aspect, and the multilayer
permutation they describe (names without entry stay) is an isomorphism; without `include_fixed` exactly the names that
change have entries, with it all names have. If they are not isomorphic it returns `None` or raises (C41). -/
theorem C55_get_isomorphism (h : Spec.Looks m d z false al S NL R) (h' : Spec.Looks m' d z' false al' S' NL' R')
    (hd : 1 ≤ d) (hal : ∀ a ∈ Spec.mayChange d allowed, a ≤ d)
    {match? : CGraph → CGraph → Option (Dict Nat Nat)} (hF : Spec.FindsIso match?) (inc : Bool) :
    let A := Spec.mayChange d allowed
    let IsIso := Spec.Isomorphism d A S NL (fun u v => R u v ≠ z) S' NL' (fun u v => R' u v ≠ z')
    ((∃ f, IsIso f) → ∃ p, getIsomorphism match? m.view m'.view allowed inc = .ok (some p) ∧ p.length = d + 1 ∧
      IsIso (Spec.permOf p) ∧
      ∀ a ≤ d, ∃ D, p[a]? = some D ∧ ∀ x, x ∈ Dict.keys D ↔ S a x ∧ (inc = true ∨ Spec.permOf p a x ≠ x)) ∧
    ((¬ ∃ f, IsIso f) → getIsomorphism match? m.view m'.view allowed inc = .ok none ∨
      (getIsomorphism match? m.view m'.view allowed inc = .error .assertionError ∧
        isIsomorphic match? m.view m'.view allowed = .error .assertionError)) := by
  have hc := iso_core (looks_shows h) (looks_shows h') hd hal hF inc
  refine ⟨fun hi => (hc.1 hi).2, fun hni => ?_⟩
  have := hc.2 hni
  split at this
  · exact Or.inl this.2
  · exact Or.inr this.symm

/-- **C55**, multiplex networks. -/
theorem C55_multiplex [Zero W] [LawfulIntNames α] {cs cs' : List (Coupling α W)} {aligned aligned' : Bool}
    {ops ops' : List (POp α W)} (hU : Spec.Usable cs aligned ops) (hs : Spec.NoIntraSelf ops)
    (hal : aligned = true ∨ ∃ w, cs = [.categorical w]) (hU' : Spec.Usable cs' aligned' ops') (hs' : Spec.NoIntraSelf ops')
    (hal' : aligned' = true ∨ ∃ w, cs' = [.categorical w]) (hcc : cs'.length = cs.length)
    (haa : ∀ a ∈ Spec.mayChange cs.length allowed, a ≤ cs.length)
    {match? : CGraph → CGraph → Option (Dict Nat Nat)} (hF : Spec.FindsIso match?) (inc : Bool) :
    let A := Spec.mayChange cs.length allowed
    let IsIso := Spec.Isomorphism cs.length A (Spec.HasNameP cs.length aligned ops) (Spec.HasNodeLayer cs.length aligned ops)
      (fun u v => Spec.weight cs false aligned ops u v ≠ 0) (Spec.HasNameP cs.length aligned' ops')
      (Spec.HasNodeLayer cs.length aligned' ops') (fun u v => Spec.weight cs' false aligned' ops' u v ≠ 0)
    let get := getIsomorphism match? (afterP cs false 0 aligned ops).view (afterP cs' false 0 aligned' ops').view allowed inc
    ((∃ f, IsIso f) → ∃ p, get = .ok (some p) ∧ p.length = cs.length + 1 ∧ IsIso (Spec.permOf p) ∧
      ∀ a ≤ cs.length, ∃ D, p[a]? = some D ∧ ∀ x, x ∈ Dict.keys D ↔
        Spec.HasNameP cs.length aligned ops a x ∧ (inc = true ∨ Spec.permOf p a x ≠ x)) ∧
    ((¬ ∃ f, IsIso f) → get = .ok none ∨ get = .error .assertionError) := by
  have h' := plex_shows hU' hs' hal'
  rw [hcc] at h'
  have hc := iso_core (plex_shows hU hs hal) h' (List.length_pos_iff.2 hU.some_aspect) haa hF inc
  refine ⟨fun hi => (hc.1 hi).2, fun hni => ?_⟩
  have := hc.2 hni
  split at this
  · exact Or.inl this.2
  · exact Or.inr this.2

/-! ### C56 -/

/-- **C56.** `get_complete_invariant` returns equal values for two undirected networks with the same number of aspects
(at least one) exactly if they are isomorphic. -/
theorem C56_complete_invariant {β : Type} (h : Spec.Looks m d z false al S NL R) (h' : Spec.Looks m' d z' false al' S' NL' R')
    (hd : 1 ≤ d) (hal : ∀ a ∈ Spec.mayChange d allowed, a ≤ d) {canon : CGraph → β} (hC : Spec.Canonical canon) :
    ∃ c c', completeInvariant canon m.view allowed = .ok c ∧ completeInvariant canon m'.view allowed = .ok c' ∧
      (c = c' ↔ ∃ f, Spec.Isomorphism d (Spec.mayChange d allowed) S NL (fun u v => R u v ≠ z) S' NL'
        (fun u v => R' u v ≠ z') f) :=
  invariant_core (looks_shows h) (looks_shows h') hd hal hC

/-- **C56**, multiplex networks. -/
theorem C56_multiplex {β : Type} [Zero W] [LawfulIntNames α] {cs cs' : List (Coupling α W)} {aligned aligned' : Bool}
    {ops ops' : List (POp α W)} (hU : Spec.Usable cs aligned ops) (hs : Spec.NoIntraSelf ops)
    (hal : aligned = true ∨ ∃ w, cs = [.categorical w]) (hU' : Spec.Usable cs' aligned' ops') (hs' : Spec.NoIntraSelf ops')
    (hal' : aligned' = true ∨ ∃ w, cs' = [.categorical w]) (hcc : cs'.length = cs.length)
    (haa : ∀ a ∈ Spec.mayChange cs.length allowed, a ≤ cs.length) {canon : CGraph → β} (hC : Spec.Canonical canon) :
    ∃ c c', completeInvariant canon (afterP cs false 0 aligned ops).view allowed = .ok c ∧
      completeInvariant canon (afterP cs' false 0 aligned' ops').view allowed = .ok c' ∧
      (c = c' ↔ ∃ f, Spec.Isomorphism cs.length (Spec.mayChange cs.length allowed) (Spec.HasNameP cs.length aligned ops)
        (Spec.HasNodeLayer cs.length aligned ops)
        (fun u v => Spec.weight cs false aligned ops u v ≠ 0) (Spec.HasNameP cs.length aligned' ops')
        (Spec.HasNodeLayer cs.length aligned' ops') (fun u v => Spec.weight cs' false aligned' ops' u v ≠ 0) f) := by
  have h' := plex_shows hU' hs' hal'
  rw [hcc] at h'
  exact invariant_core (plex_shows hU hs hal) h' (List.length_pos_iff.2 hU.some_aspect) haa hC

/-! ### C57 -/

/-- **C57.** The multilayer permutations of `get_automorphism_generators` are automorphisms of the network, and every
automorphism is a composition of them. -/
theorem C57_generators (h : Spec.Looks m d z false al S NL R) (hd : 1 ≤ d) (hal : ∀ a ∈ Spec.mayChange d allowed, a ≤ d)
    {gens : CGraph → List (Dict Nat Nat)} (hG : Spec.FindsGens gens) (inc : Bool) :
    let IsAuto := Spec.Isomorphism d (Spec.mayChange d allowed) S NL (fun u v => R u v ≠ z) S NL (fun u v => R u v ≠ z)
    ∃ ps, automorphismGenerators gens m.view allowed inc = .ok ps ∧
      (∀ p ∈ ps, p.length = d + 1 ∧ IsAuto (Spec.permOf p) ∧
        ∀ a ≤ d, ∃ D, p[a]? = some D ∧ ∀ x, x ∈ Dict.keys D ↔ S a x ∧ (inc = true ∨ Spec.permOf p a x ≠ x)) ∧
      ∀ f, IsAuto f → ∃ qs : List (List (Dict α α)), (∀ q ∈ qs, q ∈ ps) ∧
        ∀ a ≤ d, ∀ x, S a x → f a x = qs.foldr (fun q y => Spec.permOf q a y) x :=
  generators_core (looks_shows h) hd hal hG inc

/-- **C57**, multiplex networks. -/
theorem C57_multiplex [Zero W] [LawfulIntNames α] {cs : List (Coupling α W)} {aligned : Bool}
    {ops : List (POp α W)} (hU : Spec.Usable cs aligned ops) (hs : Spec.NoIntraSelf ops)
    (hal : aligned = true ∨ ∃ w, cs = [.categorical w]) (haa : ∀ a ∈ Spec.mayChange cs.length allowed, a ≤ cs.length)
    {gens : CGraph → List (Dict Nat Nat)} (hG : Spec.FindsGens gens) (inc : Bool) :
    let NM := Spec.HasNameP cs.length aligned ops
    let L := fun u v => Spec.weight cs false aligned ops u v ≠ 0
    let IsAuto := Spec.Isomorphism cs.length (Spec.mayChange cs.length allowed) NM (Spec.HasNodeLayer cs.length aligned ops) L
      NM (Spec.HasNodeLayer cs.length aligned ops) L
    ∃ ps, automorphismGenerators gens (afterP cs false 0 aligned ops).view allowed inc = .ok ps ∧
      (∀ p ∈ ps, p.length = cs.length + 1 ∧ IsAuto (Spec.permOf p) ∧
        ∀ a ≤ cs.length, ∃ D, p[a]? = some D ∧ ∀ x, x ∈ Dict.keys D ↔ NM a x ∧ (inc = true ∨ Spec.permOf p a x ≠ x)) ∧
      ∀ f, IsAuto f → ∃ qs : List (List (Dict α α)), (∀ q ∈ qs, q ∈ ps) ∧
        ∀ a ≤ cs.length, ∀ x, NM a x → f a x = qs.foldr (fun q y => Spec.permOf q a y) x :=
  generators_core (plex_shows hU hs hal) (List.length_pos_iff.2 hU.some_aspect) haa hG inc

/-! ### concrete cases -/

/-- a network, and the one with the nodes 1 and 2 and the layers 10 and 11 exchanged -/
def isoOps : List (Op Nat Int) := [.setItem [1, 2, 10] 1, .setItem [2, 3, 11] 4]
def isoOps' : List (Op Nat Int) := [.setItem [1, 2, 11] 1, .setItem [1, 3, 10] 4]

/-- the vertices: 0–5 the node-layers, 6–8 the nodes, 9–10 the layers -/
example : ∃ A, (after 1 0 false true isoOps).view.auxGraph none = .ok A ∧
    A.graph.edges.length = 16 ∧ Dict.keys A.graph.nodes = [0, 1, 2, 3, 4, 5, 6, 7, 8, 9, 10] :=
  ⟨_, rfl, by decide, by decide⟩

example : Spec.Looks (after 1 0 false true isoOps) 1 0 false true (Spec.HasName 1 true isoOps)
    (Spec.HasNodeLayerG 1 true isoOps) (Spec.read 1 false 0 isoOps) := network_looks 1 0 false true isoOps

/-- the hypotheses of C41, C55, C56, C57 are met by this pair, whatever may change -/
example (A : List Nat) (h : ∀ a ∈ A, a ≤ 1) {match? : CGraph → CGraph → Option (Dict Nat Nat)} (hF : Spec.FindsIso match?) :
    isIsomorphic match? (after 1 0 false true isoOps).view (after 1 0 false true isoOps').view (some A) = .ok true ↔
      ∃ f, Spec.Isomorphism 1 A (Spec.HasName 1 true isoOps) (Spec.HasNodeLayerG 1 true isoOps)
        (fun u v => Spec.read 1 false 0 isoOps u v ≠ 0) (Spec.HasName 1 true isoOps') (Spec.HasNodeLayerG 1 true isoOps')
        (fun u v => Spec.read 1 false 0 isoOps' u v ≠ 0) f :=
  (C41_is_isomorphic_partial (allowed := some A) (network_looks 1 0 false true isoOps)
    (network_looks 1 0 false true isoOps') (by omega) h hF).1

end Pymnet
