import Verif.Props.IsoEquiv
import Verif.Props.Diagnostics

/-! C167: isomorphic networks have the same diagnostics. -/

set_option linter.unusedSectionVars false

namespace Pymnet

open Py MPlex

variable {α W : Type} [DecidableEq α] [LinearOrder α] [DecidableEq W] {d : Nat} {allowed : Option (List Nat)}

section core

variable {A : List Nat} {S S' : Nat → α → Prop} {NL NL' : List α → Prop} {L L' : List α → List α → Prop} {f : Nat → α → α}

/-- Internal: isomorphisms are injective on node-layers. -/
theorem iso_injOn (hlen : ∀ u, NL u → u.length = d + 1) (hn : ∀ u, NL u → ∀ (a : Nat) x, u[a]? = some x → S a x)
    (hf : Spec.Isomorphism d A S NL L S' NL' L' f) : Set.InjOn (Spec.applyTo f) {u | NL u} := by
  intro u hu w hw he
  have hu' := hlen u hu
  have hw' := hlen w hw
  apply List.ext_getElem (by omega)
  intro a h1 h2
  have h3 := congrArg (fun l => l[a]?) he
  simp only [Spec.applyTo, List.getElem?_mapIdx, List.getElem?_eq_getElem h1, List.getElem?_eq_getElem h2,
    Option.map_some, Option.some.injEq] at h3
  by_cases ha : a ∈ A
  · exact (hf.bij a (by omega) ha).injOn (hn u hu a _ (List.getElem?_eq_getElem h1)) (hn w hw a _ (List.getElem?_eq_getElem h2)) h3
  · rwa [hf.fixed a (by omega) ha, hf.fixed a (by omega) ha] at h3

/-- Internal: isomorphisms keep numbers. -/
theorem iso_counts (hi : Set.InjOn (Spec.applyTo f) {u | NL u}) (hf : Spec.Isomorphism d A S NL L S' NL' L' f) :
    {u | NL' u}.ncard = {u | NL u}.ncard ∧
    (∀ k : Int, {u | NL' u ∧ ({b | NL' b ∧ L' u b}.ncard : Int) = k}.ncard = {u | NL u ∧ ({b | NL b ∧ L u b}.ncard : Int) = k}.ncard) ∧
    {p : List α × List α | NL' p.1 ∧ NL' p.2 ∧ L' p.1 p.2}.ncard = {p : List α × List α | NL p.1 ∧ NL p.2 ∧ L p.1 p.2}.ncard ∧
    {u | NL' u ∧ L' u u}.ncard = {u | NL u ∧ L u u}.ncard := by
  have im : ∀ P : List α → Prop, (Spec.applyTo f '' {u | NL u ∧ P u}).ncard = {u | NL u ∧ P u}.ncard := fun P =>
    Set.InjOn.ncard_image (hi.mono fun b hb => hb.1)
  have hdeg : ∀ u, NL u → {b | NL' b ∧ L' (Spec.applyTo f u) b}.ncard = {b | NL b ∧ L u b}.ncard := by
    intro u hu
    refine Eq.trans ?_ (im fun b => L u b)
    congr 1
    ext b
    constructor
    · rintro ⟨h1, h2⟩
      obtain ⟨b, hb, rfl⟩ := (hf.nodeLayers _).1 h1
      exact ⟨b, ⟨hb, (hf.links u b hu hb).2 h2⟩, rfl⟩
    · rintro ⟨b, ⟨hb, h2⟩, rfl⟩
      exact ⟨(hf.nodeLayers _).2 ⟨b, hb, rfl⟩, (hf.links u b hu hb).1 h2⟩
  refine ⟨?_, fun k => ?_, ?_, ?_⟩
  · rw [← Set.InjOn.ncard_image hi]
    congr 1
    ext b
    exact ⟨fun h => by obtain ⟨b, hb, rfl⟩ := (hf.nodeLayers _).1 h; exact ⟨b, hb, rfl⟩,
      by rintro ⟨b, hb, rfl⟩; exact (hf.nodeLayers _).2 ⟨b, hb, rfl⟩⟩
  · refine Eq.trans ?_ (im fun u => ({b | NL b ∧ L u b}.ncard : Int) = k)
    congr 1
    ext b
    constructor
    · rintro ⟨h1, h2⟩
      obtain ⟨b, hb, rfl⟩ := (hf.nodeLayers _).1 h1
      exact ⟨b, ⟨hb, by rw [← hdeg b hb]; exact h2⟩, rfl⟩
    · rintro ⟨b, ⟨hb, h2⟩, rfl⟩
      exact ⟨(hf.nodeLayers _).2 ⟨b, hb, rfl⟩, by rw [hdeg b hb]; exact h2⟩
  · have hi2 : Set.InjOn (Prod.map (Spec.applyTo f) (Spec.applyTo f)) {p : List α × List α | NL p.1 ∧ NL p.2 ∧ L p.1 p.2} := by
      rintro ⟨a, b⟩ ha ⟨a', b'⟩ hb he
      simp only [Prod.map_apply, Prod.mk.injEq] at he
      exact Prod.ext (hi ha.1 hb.1 he.1) (hi ha.2.1 hb.2.1 he.2)
    rw [← Set.InjOn.ncard_image hi2]
    congr 1
    ext ⟨a, b⟩
    constructor
    · rintro ⟨h1, h2, h3⟩
      obtain ⟨a0, ha, e1⟩ := (hf.nodeLayers _).1 h1
      obtain ⟨b0, hb, e2⟩ := (hf.nodeLayers _).1 h2
      dsimp only at e1 e2 h3
      subst e1 e2
      exact ⟨(a0, b0), ⟨ha, hb, (hf.links a0 b0 ha hb).2 h3⟩, rfl⟩
    · rintro ⟨⟨a0, b0⟩, ⟨ha, hb, h3⟩, he⟩
      simp only [Prod.map_apply, Prod.mk.injEq] at he
      obtain ⟨rfl, rfl⟩ := he
      exact ⟨(hf.nodeLayers _).2 ⟨a0, ha, rfl⟩, (hf.nodeLayers _).2 ⟨b0, hb, rfl⟩, (hf.links a0 b0 ha hb).1 h3⟩
  · refine Eq.trans ?_ (im fun u => L u u)
    congr 1
    ext b
    constructor
    · rintro ⟨h1, h2⟩
      obtain ⟨b, hb, rfl⟩ := (hf.nodeLayers _).1 h1
      exact ⟨b, ⟨hb, (hf.links b b hb hb).2 h2⟩, rfl⟩
    · rintro ⟨b, ⟨hb, h2⟩, rfl⟩
      exact ⟨(hf.nodeLayers _).2 ⟨b, hb, rfl⟩, (hf.links b b hb hb).1 h2⟩

/-- Internal: dictionaries with the same entries have the same sums. -/
theorem dict_sum_congr {D D' : Dict Int Nat} (hD : (D.map Prod.fst).Nodup) (hD' : (D'.map Prod.fst).Nodup)
    (h : ∀ k, Dict.get D k = Dict.get D' k) (g : Int × Nat → Int) : (D.map g).sum = (D'.map g).sum := by
  have hp : List.Perm D D' := by
    refine (List.perm_ext_iff_of_nodup hD.of_map hD'.of_map).2 ?_
    rintro ⟨k, v⟩
    constructor
    · intro hm
      exact Dict.mem_of_get (by rw [← h]; exact Dict.get_of_mem hD hm)
    · intro hm
      exact Dict.mem_of_get (by rw [h]; exact Dict.get_of_mem hD' hm)
  exact (hp.map g).sum_eq

end core

section general

variable {m m' : MNet α W} {z z' : W} {al al' : Bool} {S S' : Nat → α → Prop} {NL NL' : List α → Prop} {R R' : List α → List α → W}

/-- Internal: the number of node-layers. -/
theorem looks_ncard {dir : Bool} (h : Spec.Looks m d z dir al S NL R) : m.nodeLayers.length = {u | NL u}.ncard := by
  rw [← List.toFinset_card_of_nodup h.nodeLayers.1, ← Set.ncard_coe_finset]
  congr 1
  ext u
  simp [h.nodeLayers.2]

/-- **C167.** If `is_isomorphic` of two undirected networks with at least one aspect is `True`, whatever may change, they have the same number of
node-layers and edges, and `degs` returns the same dictionary (as a mapping) for both. -/
theorem C167_degrees (h : Spec.Looks m d z false al S NL R) (h' : Spec.Looks m' d z' false al' S' NL' R') (hd : 1 ≤ d)
    (hal : ∀ a ∈ Spec.mayChange d allowed, a ≤ d) {match? : CGraph → CGraph → Option (Dict Nat Nat)} (hF : Spec.FindsIso match?)
    (hiso : isIsomorphic match? m.view m'.view allowed = .ok true) :
    ∃ D D' es es', m.view.degs = .ok D ∧ m'.view.degs = .ok D' ∧ (∀ k, Dict.get D k = Dict.get D' k) ∧
      m.view.edges = .ok es ∧ m'.view.edges = .ok es' ∧ es.length = es'.length ∧ m.nodeLayers.length = m'.nodeLayers.length := by
  obtain ⟨f, hf⟩ := (iso_iff_core (looks_shows h) (looks_shows h') hd hal hF).1 hiso
  have hi := iso_injOn (looks_shows h).names.1 (looks_shows h).names.2 hf
  obtain ⟨c1, c2, -, c4⟩ := iso_counts hi hf
  obtain ⟨D, es, e1, e2, e3, e4, e5, e6⟩ := C35_handshake h
  obtain ⟨D', es', e1', e2', e3', e4', e5', e6'⟩ := C35_handshake h'
  have hget : ∀ k, Dict.get D k = Dict.get D' k := by
    intro k
    apply Option.ext
    intro n
    rw [e4, e4', c2 k]
  refine ⟨D, D', es, es', e1, e1', hget, e2, e2', ?_, by rw [looks_ncard h, looks_ncard h', c1]⟩
  have := dict_sum_congr e3 e3' hget fun p => p.1 * (p.2 : Int)
  rw [e6, e6', c4] at this
  omega

/-- **C167, density.** Isomorphic undirected node-aligned networks without self-links, with two or more node-layers, have the same density. -/
theorem C167_density (h : Spec.Looks m d z false true S NL R) (h' : Spec.Looks m' d z' false true S' NL' R') (hd : 1 ≤ d)
    (hal : ∀ a ∈ Spec.mayChange d allowed, a ≤ d) {match? : CGraph → CGraph → Option (Dict Nat Nat)} (hF : Spec.FindsIso match?)
    (hiso : isIsomorphic match? m.view m'.view allowed = .ok true) (hs : ∀ a, NL a → R a a = z) (h2 : 2 ≤ {nl | NL nl}.ncard) :
    ∃ q, m.view.density = .ok q ∧ m'.view.density = .ok q := by
  obtain ⟨f, hf⟩ := (iso_iff_core (looks_shows h) (looks_shows h') hd hal hF).1 hiso
  have hi := iso_injOn (looks_shows h).names.1 (looks_shows h).names.2 hf
  obtain ⟨c1, -, c3, -⟩ := iso_counts hi hf
  have hs' : ∀ a, NL' a → R' a a = z' := by
    intro a ha
    obtain ⟨b, hb, rfl⟩ := (hf.nodeLayers a).1 ha
    by_contra hne
    exact (hf.links b b hb hb).2 hne (hs b hb)
  obtain ⟨q, e, eq, -⟩ := C36_density h hs h2
  obtain ⟨q', e', eq', -⟩ := C36_density h' hs' (by rw [c1]; exact h2)
  rw [c1, c3, ← eq] at eq'
  exact ⟨q, e, eq' ▸ e'⟩

end general

section plex

variable [Zero W] [LawfulIntNames α] {cs cs' : List (Coupling α W)} {al al' : Bool} {ops ops' : List (POp α W)}

/-- **C167, multiplex networks.** The same for undirected multiplex networks with missing value 0 and categorical or ordinal couplings that are
node-aligned, or have one aspect with categorical couplings, without self-links written through an intra-layer network. -/
theorem C167_multiplex (hU : Spec.Usable cs al ops) (hs : Spec.NoIntraSelf ops) (ha : al = true ∨ ∃ w, cs = [.categorical w])
    (hU' : Spec.Usable cs' al' ops') (hs' : Spec.NoIntraSelf ops') (ha' : al' = true ∨ ∃ w, cs' = [.categorical w])
    (hcc : cs'.length = cs.length) (haa : ∀ a ∈ Spec.mayChange cs.length allowed, a ≤ cs.length)
    {match? : CGraph → CGraph → Option (Dict Nat Nat)} (hF : Spec.FindsIso match?)
    (hiso : isIsomorphic match? (afterP cs false 0 al ops).view (afterP cs' false 0 al' ops').view allowed = .ok true) :
    (∃ D D' es es', (afterP cs false 0 al ops).view.degs = .ok D ∧ (afterP cs' false 0 al' ops').view.degs = .ok D' ∧
      (∀ k, Dict.get D k = Dict.get D' k) ∧ (afterP cs false 0 al ops).view.edges = .ok es ∧
      (afterP cs' false 0 al' ops').view.edges = .ok es' ∧ es.length = es'.length) ∧
    (al = true → al' = true → 2 ≤ {nl | Spec.HasNodeLayer cs.length al ops nl}.ncard →
      ∃ q, (afterP cs false 0 al ops).view.density = .ok q ∧ (afterP cs' false 0 al' ops').view.density = .ok q) := by
  have k := plex_shows hU hs ha
  have k' := plex_shows hU' hs' ha'
  rw [hcc] at k'
  obtain ⟨f, hf⟩ := (iso_iff_core k k' (List.length_pos_iff.2 hU.some_aspect) haa hF).1 hiso
  obtain ⟨c1, c2, c3, -⟩ := iso_counts (iso_injOn k.names.1 k.names.2 hf) hf
  constructor
  · obtain ⟨D, es, e1, e2, e3, e4, e5, e6⟩ := C35_multiplex hU hs ha
    obtain ⟨D', es', e1', e2', e3', e4', e5', e6'⟩ := C35_multiplex hU' hs' ha'
    rw [hcc] at e4'
    have hget : ∀ k, Dict.get D k = Dict.get D' k := by
      intro k
      apply Option.ext
      intro n
      rw [e4, e4', c2 k]
    refine ⟨D, D', es, es', e1, e1', hget, e2, e2', ?_⟩
    have := dict_sum_congr e3 e3' hget fun p => p.1 * (p.2 : Int)
    rw [e6, e6'] at this
    omega
  · rintro rfl rfl h2
    obtain ⟨q, e, eq, -⟩ := C36_multiplex false hU hs h2
    obtain ⟨q', e', eq', -⟩ := C36_multiplex false hU' hs' (by rw [hcc, c1]; exact h2)
    rw [hcc, c1, c3, ← eq] at eq'
    exact ⟨q, e, eq' ▸ e'⟩

end plex

/-! ### concrete cases -/

/-- a network and its copy with two nodes and the two layers exchanged -/
theorem oneOps_isomorphic {match? : CGraph → CGraph → Option (Dict Nat Nat)} (hF : Spec.FindsIso match?) :
    isIsomorphic match? (after 1 0 false true oneOps).view (after 1 0 false true oneOps').view none = .ok true := by
  obtain ⟨canon, hC⟩ := exists_canonical
  obtain ⟨m', c, e1, e2, -⟩ := C158_relabel_isomorphic (allowed := none) (network_looks 1 0 false true oneOps) (by omega)
    (fun a ha => by simp [Spec.mayChange] at ha; omega) [(1, 2), (2, 1)] [[(10, 11), (11, 10)]]
    (fun k _ x y _ _ h => by
      rcases k with _ | _ | k <;> simp [Spec.newName, Dict.get] at h <;> try exact h
      all_goals split_ifs at h <;> simp only [Option.getD_some, Option.getD_none] at h <;> omega)
    (fun k hk hnot x => absurd (List.mem_range.2 (by omega)) hnot) hF hC
  cases (show (after 1 0 false true oneOps).relabel [(1, 2), (2, 1)] [[(10, 11), (11, 10)]] = .ok (after 1 0 false true oneOps')
    from rfl).symm.trans e1
  exact e2

example {match? : CGraph → CGraph → Option (Dict Nat Nat)} (hF : Spec.FindsIso match?) :
    (∃ D D' es es', (after 1 0 false true oneOps).view.degs = .ok D ∧ (after 1 0 false true oneOps').view.degs = .ok D' ∧
      (∀ k, Dict.get D k = Dict.get D' k) ∧ (after 1 0 false true oneOps).view.edges = .ok es ∧
      (after 1 0 false true oneOps').view.edges = .ok es' ∧ es.length = es'.length ∧
      (after 1 0 false true oneOps).nodeLayers.length = (after 1 0 false true oneOps').nodeLayers.length) ∧
    ∃ q, (after 1 0 false true oneOps).view.density = .ok q ∧ (after 1 0 false true oneOps').view.density = .ok q := by
  have l := network_looks 1 0 false true oneOps
  have l' := network_looks 1 0 false true oneOps'
  have hal : ∀ a ∈ Spec.mayChange 1 none, a ≤ 1 := fun a ha => by simp [Spec.mayChange] at ha; omega
  refine ⟨C167_degrees l l' (by omega) hal hF (oneOps_isomorphic hF), C167_density l l' (by omega) hal hF (oneOps_isomorphic hF) (fun a ha => ?_) ?_⟩
  · rw [← l.reads_eq (l.nl_length ha) (l.nl_length ha)]
    have : ∀ a ∈ (after 1 0 false true oneOps).nodeLayers, (after 1 0 false true oneOps).reads a a = 0 := by decide
    exact this a ((l.nodeLayers.2 a).2 ha)
  · rw [← looks_ncard l]; decide

example {match? : CGraph → CGraph → Option (Dict Nat Nat)} (hF : Spec.FindsIso match?) :
    ∃ D D' es es', (afterP [.categorical (1 : Int)] false 0 true isoOpsA).view.degs = .ok D ∧
      (afterP [.categorical (1 : Int)] false 0 true isoOpsB).view.degs = .ok D' ∧ (∀ k, Dict.get D k = Dict.get D' k) ∧
      (afterP [.categorical (1 : Int)] false 0 true isoOpsA).view.edges = .ok es ∧
      (afterP [.categorical (1 : Int)] false 0 true isoOpsB).view.edges = .ok es' ∧ es.length = es'.length := by
  obtain ⟨canon, hC⟩ := exists_canonical
  have u : ∀ ops, Spec.Usable [.categorical (1 : Int)] true (ops : List (POp Int Int)) :=
    fun ops => ⟨by simp, by simp, by rintro (_ | d) w x h <;> simp at h⟩
  have hsA : Spec.NoIntraSelf isoOpsA := by intro L i w h; simp [isoOpsA] at h
  have hsB : Spec.NoIntraSelf isoOpsB := by intro L i w h; simp [isoOpsB] at h
  have haa : ∀ a ∈ Spec.mayChange [Coupling.categorical (α := Int) (1 : Int)].length none, a ≤ [Coupling.categorical (α := Int) (1 : Int)].length :=
    fun a ha => by simp [Spec.mayChange] at ha; simp; omega
  obtain ⟨p', c, e1, e2, -⟩ := C158_multiplex (cs := [.categorical (1 : Int)]) (al := true) (ops := isoOpsA) (allowed := none)
    (u _) hsA (Or.inl rfl) haa [(1, 2), (2, 1)] [[]] (fun k _ x y _ _ h => swapI_inj k x y h)
    (by rintro (_ | d) w x h <;> simp at h) (fun k hk hnot x => absurd (List.mem_range.2 (by omega)) hnot) hF hC
  rw [isoOps_relabel] at e1
  cases e1
  exact (C167_multiplex (u _) hsA (Or.inl rfl) (u _) hsB (Or.inl rfl) rfl haa hF e2).1

end Pymnet
