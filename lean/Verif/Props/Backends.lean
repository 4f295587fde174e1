import Verif.Model.Backends
import Verif.Props.Isom

/-! C154: the choice of the backend of the isomorphism functions. -/

set_option linter.unusedSectionVars false

namespace Pymnet

open Py MPlex

variable {α W β : Type} [DecidableEq α] [DecidableEq W] [LinearOrder α]

variable {m m' : MNet α W} {d : Nat} {z z' : W} {al al' : Bool} {S S' : Nat → α → Prop} {NL NL' : List α → Prop}
  {R R' : List α → List α → W} {allowed : Option (List Nat)}

/-- The backends that were imported, in any order: NetworkX under the name "nx" and PyBliss under the name "bliss", either, both
or none of them. NetworkX finds isomorphisms; PyBliss also finds canonical forms and generators. -/
structure Spec.Imported (bs : Dict String (Builder β)) : Prop where
  nodup : (Dict.keys bs).Nodup
  known : ∀ p ∈ bs, (∃ f g c, p = ("nx", builderNX f g c) ∧ Spec.FindsIso f) ∨
    ∃ f g c, p = ("bliss", builderBliss f g c) ∧ Spec.FindsIso f ∧ Spec.FindsGens g ∧ Spec.Canonical c

/-- `backend` is one of the names that can do the task and was imported, or it is "auto" and one of them was imported. -/
def Spec.CanUse (names : List String) (bs : Dict String (Builder β)) (backend : String) : Prop :=
  (backend = "auto" ∧ ∃ n ∈ names, n ∈ Dict.keys bs) ∨ backend ∈ names ∧ backend ∈ Dict.keys bs

/-- Internal: the task can be done by the backends of these names, and only by these. -/
def TaskOf (names : List String) (task : Builder β → Bool) : Prop :=
  ∀ bs : Dict String (Builder β), Spec.Imported bs → ∀ p ∈ bs, (task p.2 = true ↔ p.1 ∈ names)

theorem taskOf_both {task : Builder β → Bool} (h1 : ∀ f g c, task (builderNX f g c) = true) (h2 : ∀ f g c, task (builderBliss f g c) = true) :
    TaskOf ["nx", "bliss"] task := by
  intro bs h p hp
  rcases h.known p hp with ⟨f, g, c, rfl, -⟩ | ⟨f, g, c, rfl, -⟩
  · simp [h1]
  · simp [h2]

theorem taskOf_bliss {task : Builder β → Bool} (h1 : ∀ f g c, task (builderNX f g c) = false) (h2 : ∀ f g c, task (builderBliss f g c) = true) :
    TaskOf ["bliss"] task := by
  intro bs h p hp
  rcases h.known p hp with ⟨f, g, c, rfl, -⟩ | ⟨f, g, c, rfl, -⟩
  · simp [h1]
  · simp [h2]

theorem mem_backendsFor {names : List String} {task : Builder β → Bool} (ht : TaskOf names task) {bs : Dict String (Builder β)}
    (h : Spec.Imported bs) (n : String) : n ∈ backendsFor task bs ↔ n ∈ names ∧ n ∈ Dict.keys bs := by
  unfold backendsFor Dict.keys
  simp only [List.mem_map, List.mem_filter]
  constructor
  · rintro ⟨p, ⟨h1, h2⟩, rfl⟩; exact ⟨(ht bs h p h1).1 h2, p, h1, rfl⟩
  · rintro ⟨h1, p, h2, rfl⟩; exact ⟨p, ⟨h2, (ht bs h p h2).2 h1⟩, rfl⟩

theorem chooseBackend_ok {names : List String} {task : Builder β → Bool} (ht : TaskOf names task) (hauto : "auto" ∉ names)
    {bs : Dict String (Builder β)} (h : Spec.Imported bs) {backend : String} :
    (Spec.CanUse names bs backend → ∃ n b, chooseBackend task bs backend = .ok b ∧ n ∈ names ∧ (n, b) ∈ bs) ∧
      (¬ Spec.CanUse names bs backend → chooseBackend task bs backend = .error .assertionError) := by
  have hm := mem_backendsFor ht h
  have hget : ∀ n ∈ backendsFor task bs, ∃ b, Dict.get bs n = some b ∧ n ∈ names ∧ (n, b) ∈ bs := by
    intro n hn
    obtain ⟨h1, h2⟩ := (hm n).1 hn
    obtain ⟨⟨n', b⟩, h3, rfl⟩ := List.mem_map.1 h2
    exact ⟨b, Dict.get_of_mem h.nodup h3, h1, h3⟩
  unfold chooseBackend Spec.CanUse
  generalize hl : backendsFor task bs = l at *
  cases l with
  | nil =>
    refine ⟨fun hc => ?_, fun _ => rfl⟩
    rcases hc with ⟨-, n, h1, h2⟩ | ⟨h1, h2⟩
    · exact absurd ((hm n).2 ⟨h1, h2⟩) (by simp)
    · exact absurd ((hm _).2 ⟨h1, h2⟩) (by simp)
  | cons first rest =>
    dsimp only
    by_cases ha : backend = "auto"
    · rw [if_pos ha]
      obtain ⟨b, e, h1, h2⟩ := hget first (by simp)
      refine ⟨fun _ => ⟨first, b, by rw [e]; rfl, h1, h2⟩, fun hn => absurd (Or.inl ⟨ha, first, ?_⟩) hn⟩
      exact (hm first).1 (by simp)
    · rw [if_neg ha]
      by_cases hb : backend ∈ first :: rest
      · rw [if_pos hb]
        obtain ⟨b, e, h1, h2⟩ := hget backend hb
        exact ⟨fun _ => ⟨backend, b, by rw [e]; rfl, h1, h2⟩, fun hn => absurd (Or.inr ((hm _).1 hb)) hn⟩
      · rw [if_neg hb]
        refine ⟨fun hc => ?_, fun _ => rfl⟩
        rcases hc with ⟨h1, -⟩ | h1
        · exact absurd h1 ha
        · exact absurd ((hm _).2 h1) hb

theorem Spec.Imported.finds {bs : Dict String (Builder β)} (h : Spec.Imported bs) {n : String} {b : Builder β} (hb : (n, b) ∈ bs) :
    Spec.FindsIso b.match? := by
  rcases h.known _ hb with ⟨f, g, c, e, h1⟩ | ⟨f, g, c, e, h1, -⟩
  · cases e; exact h1
  · cases e; exact h1

theorem Spec.Imported.bliss {bs : Dict String (Builder β)} (h : Spec.Imported bs) {b : Builder β} (hb : ("bliss", b) ∈ bs) :
    Spec.FindsGens b.gens ∧ Spec.Canonical b.canon := by
  rcases h.known _ hb with ⟨f, g, c, e, h1⟩ | ⟨f, g, c, e, -, h1⟩
  · simp at e
  · cases e; exact h1

theorem task_comparison : TaskOf (β := β) ["nx", "bliss"] Builder.hasComparison := taskOf_both (fun _ _ _ => rfl) fun _ _ _ => rfl
theorem task_mapping : TaskOf (β := β) ["nx", "bliss"] Builder.hasIsomorphismMapping := taskOf_both (fun _ _ _ => rfl) fun _ _ _ => rfl
theorem task_invariant : TaskOf (β := β) ["bliss"] Builder.hasCompleteInvariant := taskOf_bliss (fun _ _ _ => rfl) fun _ _ _ => rfl
theorem task_generators : TaskOf (β := β) ["bliss"] Builder.hasAutomorphismGenerators := taskOf_bliss (fun _ _ _ => rfl) fun _ _ _ => rfl

/-- **C154, refusals.** `is_isomorphic` and `get_isomorphism` raise `AssertionError` for every network if neither "nx" nor "bliss"
was imported, or if another backend than "auto" and the imported ones is named; `get_complete_invariant` and
`get_automorphism_generators` do if "bliss" was not imported, or if another backend than "auto" and "bliss" is named. -/
theorem C154_refused {bs : Dict String (Builder β)} (hb : Spec.Imported bs) (backend : String) (v w : View α W)
    (allowed : Option (List Nat)) (inc : Bool) :
    (¬ Spec.CanUse ["nx", "bliss"] bs backend → isIsomorphicBy bs v w allowed backend = .error .assertionError ∧
      getIsomorphismBy bs v w allowed inc backend = .error .assertionError) ∧
    (¬ Spec.CanUse ["bliss"] bs backend → completeInvariantBy bs v allowed backend = .error .assertionError ∧
      automorphismGeneratorsBy bs v allowed inc backend = .error .assertionError) := by
  refine ⟨fun h => ⟨?_, ?_⟩, fun h => ⟨?_, ?_⟩⟩
  · unfold isIsomorphicBy; rw [(chooseBackend_ok task_comparison (by decide) hb).2 h]
  · unfold getIsomorphismBy; rw [(chooseBackend_ok task_mapping (by decide) hb).2 h]
  · unfold completeInvariantBy; rw [(chooseBackend_ok task_invariant (by decide) hb).2 h]
  · unfold automorphismGeneratorsBy; rw [(chooseBackend_ok task_generators (by decide) hb).2 h]

/-- Internal: the answers of the backends for two views. -/
theorem same_answer_core {β' : Type} {v w : View α W} {L L' : List α → List α → Prop} (h : Shows v d S NL L) (h' : Shows w d S' NL' L')
    (hd : 1 ≤ d) (hal : ∀ a ∈ Spec.mayChange d allowed, a ≤ d)
    {bs : Dict String (Builder β)} {bs' : Dict String (Builder β')} (hb : Spec.Imported bs) (hb' : Spec.Imported bs') {n n' : String}
    (hn : Spec.CanUse ["nx", "bliss"] bs n) (hn' : Spec.CanUse ["nx", "bliss"] bs' n') (inc : Bool) :
    let IsIso := Spec.Isomorphism d (Spec.mayChange d allowed) S NL L S' NL' L'
    isIsomorphicBy bs v w allowed n = isIsomorphicBy bs' v w allowed n' ∧
    (isIsomorphicBy bs v w allowed n = .ok true ↔ ∃ f, IsIso f) ∧
    ((∃ f, IsIso f) → ∃ p p', getIsomorphismBy bs v w allowed inc n = .ok (some p) ∧
      getIsomorphismBy bs' v w allowed inc n' = .ok (some p') ∧
      p.length = d + 1 ∧ p'.length = d + 1 ∧ IsIso (Spec.permOf p) ∧ IsIso (Spec.permOf p')) ∧
    ((¬ ∃ f, IsIso f) → getIsomorphismBy bs v w allowed inc n = getIsomorphismBy bs' v w allowed inc n' ∧
      ∀ p, getIsomorphismBy bs v w allowed inc n ≠ .ok (some p)) := by
  intro IsIso
  obtain ⟨_, b1, e1, -, k1⟩ := (chooseBackend_ok task_comparison (by decide) hb).1 hn
  obtain ⟨_, b2, e2, -, k2⟩ := (chooseBackend_ok task_comparison (by decide) hb').1 hn'
  obtain ⟨_, b3, e3, -, k3⟩ := (chooseBackend_ok task_mapping (by decide) hb).1 hn
  obtain ⟨_, b4, e4, -, k4⟩ := (chooseBackend_ok task_mapping (by decide) hb').1 hn'
  have c1 := iso_core h h' hd hal (hb.finds k1) inc
  have c2 := iso_core h h' hd hal (hb'.finds k2) inc
  have c3 := iso_core h h' hd hal (hb.finds k3) inc
  have c4 := iso_core h h' hd hal (hb'.finds k4) inc
  unfold isIsomorphicBy getIsomorphismBy
  rw [e1, e2, e3, e4]
  dsimp only
  by_cases hi : ∃ f, IsIso f
  · obtain ⟨p, q1, q2, q3, -⟩ := (c3.1 hi).2
    obtain ⟨p', q1', q2', q3', -⟩ := (c4.1 hi).2
    refine ⟨by rw [(c1.1 hi).1, (c2.1 hi).1], ⟨fun _ => hi, fun _ => (c1.1 hi).1⟩, fun _ => ⟨p, p', q1, q1', q2, q2', q3, q3'⟩,
      fun hx => absurd hi hx⟩
  · have d1 := c1.2 hi
    have d2 := c2.2 hi
    have d3 := c3.2 hi
    have d4 := c4.2 hi
    split at d1
    · rename_i hc
      rw [if_pos hc] at d2 d3 d4
      rw [d1.1, d2.1, d3.2, d4.2]
      exact ⟨rfl, ⟨fun e => by simp at e, fun hx => absurd hx hi⟩, fun hx => absurd hx hi, fun _ => ⟨rfl, fun p e => by simp at e⟩⟩
    · rename_i hc
      rw [if_neg hc] at d2 d3 d4
      rw [d1.1, d2.1, d3.2, d4.2]
      exact ⟨rfl, ⟨fun e => by simp at e, fun hx => absurd hx hi⟩, fun hx => absurd hx hi, fun _ => ⟨rfl, fun p e => by simp at e⟩⟩

/-- **C154, the answer does not depend on the backend.** For undirected networks with at least one aspect, any two backends that were
imported, possibly on different computers, give the same result of `is_isomorphic`, be it `True`, `False` or an exception, and
`True` exactly if the networks are isomorphic; and `get_isomorphism` returns an isomorphism with the one exactly if it does with
the other. -/
theorem C154_same_answer {β' : Type} (h : Spec.Looks m d z false al S NL R) (h' : Spec.Looks m' d z' false al' S' NL' R')
    (hd : 1 ≤ d) (hal : ∀ a ∈ Spec.mayChange d allowed, a ≤ d)
    {bs : Dict String (Builder β)} {bs' : Dict String (Builder β')} (hb : Spec.Imported bs) (hb' : Spec.Imported bs') {n n' : String}
    (hn : Spec.CanUse ["nx", "bliss"] bs n) (hn' : Spec.CanUse ["nx", "bliss"] bs' n') (inc : Bool) :
    let IsIso := Spec.Isomorphism d (Spec.mayChange d allowed) S NL (fun u v => R u v ≠ z) S' NL' (fun u v => R' u v ≠ z')
    isIsomorphicBy bs m.view m'.view allowed n = isIsomorphicBy bs' m.view m'.view allowed n' ∧
    (isIsomorphicBy bs m.view m'.view allowed n = .ok true ↔ ∃ f, IsIso f) ∧
    ((∃ f, IsIso f) → ∃ p p', getIsomorphismBy bs m.view m'.view allowed inc n = .ok (some p) ∧
      getIsomorphismBy bs' m.view m'.view allowed inc n' = .ok (some p') ∧
      p.length = d + 1 ∧ p'.length = d + 1 ∧ IsIso (Spec.permOf p) ∧ IsIso (Spec.permOf p')) ∧
    ((¬ ∃ f, IsIso f) → getIsomorphismBy bs m.view m'.view allowed inc n = getIsomorphismBy bs' m.view m'.view allowed inc n' ∧
      ∀ p, getIsomorphismBy bs m.view m'.view allowed inc n ≠ .ok (some p)) :=
  same_answer_core (looks_shows h) (looks_shows h') hd hal hb hb' hn hn' inc

/-- **C154, the answer does not depend on the backend**, multiplex networks. -/
theorem C154_same_multiplex {β' : Type} [Zero W] [LawfulIntNames α] {cs cs' : List (Coupling α W)}
    {aligned aligned' : Bool} {ops ops' : List (POp α W)} (hU : Spec.Usable cs aligned ops) (hs : Spec.NoIntraSelf ops)
    (hal : aligned = true ∨ ∃ w, cs = [.categorical w]) (hU' : Spec.Usable cs' aligned' ops') (hs' : Spec.NoIntraSelf ops')
    (hal' : aligned' = true ∨ ∃ w, cs' = [.categorical w]) (hcc : cs'.length = cs.length)
    (haa : ∀ a ∈ Spec.mayChange cs.length allowed, a ≤ cs.length)
    {bs : Dict String (Builder β)} {bs' : Dict String (Builder β')} (hb : Spec.Imported bs) (hb' : Spec.Imported bs') {n n' : String}
    (hn : Spec.CanUse ["nx", "bliss"] bs n) (hn' : Spec.CanUse ["nx", "bliss"] bs' n') (inc : Bool) :
    let v := (afterP cs false 0 aligned ops).view
    let w := (afterP cs' false 0 aligned' ops').view
    let IsIso := Spec.Isomorphism cs.length (Spec.mayChange cs.length allowed) (Spec.HasNameP cs.length aligned ops)
      (Spec.HasNodeLayer cs.length aligned ops) (fun u v => Spec.weight cs false aligned ops u v ≠ 0)
      (Spec.HasNameP cs.length aligned' ops') (Spec.HasNodeLayer cs.length aligned' ops')
      (fun u v => Spec.weight cs' false aligned' ops' u v ≠ 0)
    isIsomorphicBy bs v w allowed n = isIsomorphicBy bs' v w allowed n' ∧
    (isIsomorphicBy bs v w allowed n = .ok true ↔ ∃ f, IsIso f) ∧
    ((∃ f, IsIso f) → ∃ p p', getIsomorphismBy bs v w allowed inc n = .ok (some p) ∧
      getIsomorphismBy bs' v w allowed inc n' = .ok (some p') ∧
      p.length = cs.length + 1 ∧ p'.length = cs.length + 1 ∧ IsIso (Spec.permOf p) ∧ IsIso (Spec.permOf p')) ∧
    ((¬ ∃ f, IsIso f) → getIsomorphismBy bs v w allowed inc n = getIsomorphismBy bs' v w allowed inc n' ∧
      ∀ p, getIsomorphismBy bs v w allowed inc n ≠ .ok (some p)) := by
  intro v w IsIso
  have h' := plex_shows hU' hs' hal'
  rw [hcc] at h'
  have hpos : 1 ≤ cs.length := List.length_pos_of_ne_nil hU.some_aspect
  exact same_answer_core (plex_shows hU hs hal) h' hpos haa hb hb' hn hn' inc

/-- **C154, the tasks of PyBliss alone.** If "bliss" was imported, also if "nx" was and comes first, `get_complete_invariant` and
`get_automorphism_generators` with the backend "auto" or "bliss" are the complete invariant and the generators. -/
theorem C154_bliss (h : Spec.Looks m d z false al S NL R) (h' : Spec.Looks m' d z' false al' S' NL' R')
    (hd : 1 ≤ d) (hal : ∀ a ∈ Spec.mayChange d allowed, a ≤ d) {bs : Dict String (Builder β)} (hb : Spec.Imported bs) {n n' : String}
    (hn : Spec.CanUse ["bliss"] bs n) (hn' : Spec.CanUse ["bliss"] bs n') (inc : Bool) :
    (∃ c c', completeInvariantBy bs m.view allowed n = .ok c ∧ completeInvariantBy bs m'.view allowed n' = .ok c' ∧
      (c = c' ↔ ∃ f, Spec.Isomorphism d (Spec.mayChange d allowed) S NL (fun u v => R u v ≠ z) S' NL'
        (fun u v => R' u v ≠ z') f)) ∧
    ∃ ps, automorphismGeneratorsBy bs m.view allowed inc n = .ok ps ∧
      (∀ p ∈ ps, p.length = d + 1 ∧ Spec.Isomorphism d (Spec.mayChange d allowed) S NL (fun u v => R u v ≠ z) S NL
        (fun u v => R u v ≠ z) (Spec.permOf p)) ∧
      ∀ f, Spec.Isomorphism d (Spec.mayChange d allowed) S NL (fun u v => R u v ≠ z) S NL (fun u v => R u v ≠ z) f →
        ∃ qs : List (List (Dict α α)), (∀ q ∈ qs, q ∈ ps) ∧
          ∀ a ≤ d, ∀ x, S a x → f a x = qs.foldr (fun q y => Spec.permOf q a y) x := by
  obtain ⟨x1, b1, e1, m1, k1⟩ := (chooseBackend_ok task_invariant (by decide) hb).1 hn
  obtain ⟨x2, b2, e2, m2, k2⟩ := (chooseBackend_ok task_invariant (by decide) hb).1 hn'
  obtain ⟨x3, b3, e3, m3, k3⟩ := (chooseBackend_ok task_generators (by decide) hb).1 hn
  obtain rfl := List.mem_singleton.1 m1
  obtain rfl := List.mem_singleton.1 m2
  obtain rfl := List.mem_singleton.1 m3
  have e : b1 = b2 := by
    have g1 := Dict.get_of_mem hb.nodup k1
    rw [Dict.get_of_mem hb.nodup k2] at g1
    exact (Option.some.inj g1).symm
  subst e
  unfold completeInvariantBy automorphismGeneratorsBy
  rw [e1, e2, e3]
  refine ⟨C56_complete_invariant h h' hd hal (hb.bliss k1).2, ?_⟩
  obtain ⟨ps, q1, q2, q3⟩ := C57_generators h hd hal (hb.bliss k3).1 inc
  exact ⟨ps, q1, fun p hp => ⟨(q2 p hp).1, (q2 p hp).2.1⟩, q3⟩

/-! ### the hypotheses can be met -/

theorem exists_imported : ∃ bs : Dict String (Builder (CGraph → Prop)), Spec.Imported bs ∧ Spec.CanUse ["nx", "bliss"] bs "auto" ∧
    Spec.CanUse ["nx", "bliss"] bs "nx" ∧ Spec.CanUse ["bliss"] bs "auto" ∧ ¬ Spec.CanUse ["bliss"] bs "nx" := by
  obtain ⟨f, hf⟩ := exists_findsIso
  obtain ⟨g, hg⟩ := exists_findsGens
  obtain ⟨c, hc⟩ := exists_canonical
  refine ⟨[("nx", builderNX f g c), ("bliss", builderBliss f g c)], ⟨by simp [Dict.keys], fun p hp => ?_⟩, ?_, ?_, ?_, ?_⟩
  · rcases List.mem_cons.1 hp with rfl | hp
    · exact Or.inl ⟨f, g, c, rfl, hf⟩
    · rw [List.mem_singleton.1 hp]
      exact Or.inr ⟨f, g, c, rfl, hf, hg, hc⟩
  all_goals simp [Spec.CanUse, Dict.keys]

/-- Only NetworkX: the complete invariant is refused with every backend. -/
example : ∃ bs : Dict String (Builder (CGraph → Prop)), Spec.Imported bs ∧ Spec.CanUse ["nx", "bliss"] bs "auto" ∧
    ∀ backend, completeInvariantBy bs (after 1 0 false true [.setItem [1, 2, 10] 1] : MNet Nat Int).view none backend =
      .error .assertionError := by
  obtain ⟨f, hf⟩ := exists_findsIso
  obtain ⟨g, -⟩ := exists_findsGens
  obtain ⟨c, -⟩ := exists_canonical
  have hb : Spec.Imported [("nx", builderNX f g c)] :=
    ⟨by simp [Dict.keys], fun p hp => by rw [List.mem_singleton.1 hp]; exact Or.inl ⟨f, g, c, rfl, hf⟩⟩
  exact ⟨_, hb, by simp [Spec.CanUse, Dict.keys], fun backend =>
    ((C154_refused hb backend _ (after 1 0 false true [] : MNet Nat Int).view none true).2
      (by rintro (⟨-, h⟩ | ⟨h1, h2⟩) <;> simp_all [Dict.keys])).1⟩

/-- The networks of `isoOps`: NetworkX and the choice "auto" give the same answer. -/
example : ∃ bs : Dict String (Builder (CGraph → Prop)), Spec.Imported bs ∧
    isIsomorphicBy bs (after 1 0 false true isoOps).view (after 1 0 false true isoOps').view none "nx" =
      isIsomorphicBy bs (after 1 0 false true isoOps).view (after 1 0 false true isoOps').view none "auto" := by
  obtain ⟨bs, hb, h1, h2, -⟩ := exists_imported
  exact ⟨bs, hb, (C154_same_answer (allowed := none) (network_looks 1 0 false true isoOps) (network_looks 1 0 false true isoOps')
    (by omega) (fun a ha => by simp [Spec.mayChange] at ha; omega) hb hb h2 h1 true).1⟩

end Pymnet
