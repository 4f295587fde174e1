import Verif.Proofs.OrbitEqsG
import Verif.Proofs.OrbitEqsN

/-! Combinations of a graphlet of two nodes with one of two or three: isomorphisms that keep the nodes of the first. -/

set_option linter.unusedSectionVars false
set_option linter.unusedSimpArgs false
set_option linter.unusedVariables false

namespace Pymnet

open Py MPlex

variable {α W β σ : Type} [DecidableEq α] [DecidableEq W] [Zero W] [LawfulIntNames α] [LinearOrder α] [DecidableEq σ] [One W]
  {canon : CGraph → β} {str : List (List α × Nat) × β → σ} {allowed : Option (List Nat)} {c : Coupling α W}
  {idx : Nat → α} {layers : List α} {nl N n : Nat} {T : Tables α W σ} {ol : List (Orbit α)}
  {match? : CGraph → CGraph → Option (Dict Nat Nat)} {ord : Finset α → List α} {ops ops' ops1 ops2 : List (POp α W)} {s : Finset α}
  {p p1 p2 : MPlex α W} {g g1 g2 : Spec.Multigraph α} {A1 A2 : Finset α} {v : α} {q q1 q2 : Orbit α} {neg : α → Bool} {t : Nat} {int : Int → α}

omit [DecidableEq α] [LawfulIntNames α] [LinearOrder α] in
theorem inj3 {a b c : α} (h1 : a ≠ b) (h2 : a ≠ c) (h3 : b ≠ c) : Function.Injective (![a, b, c] : Fin 3 → α) := by
  intro i j h
  fin_cases i <;> fin_cases j
  exacts [rfl, absurd h h1, absurd h h2, absurd h h1.symm, rfl, absurd h h3, absurd h h2.symm, absurd h h3.symm, rfl]

omit [DecidableEq α] [LawfulIntNames α] [LinearOrder α] in
theorem inj4 {a b c d : α} (h1 : a ≠ b) (h2 : a ≠ c) (h3 : a ≠ d) (h4 : b ≠ c) (h5 : b ≠ d) (h6 : c ≠ d) :
    Function.Injective (![a, b, c, d] : Fin 4 → α) := by
  intro i j h
  fin_cases i <;> fin_cases j
  exacts [rfl, absurd h h1, absurd h h2, absurd h h3, absurd h h1.symm, rfl, absurd h h4, absurd h h5, absurd h h2.symm, absurd h h4.symm, rfl,
    absurd h h6, absurd h h3.symm, absurd h h5.symm, absurd h h6.symm, rfl]

section numbered
variable {cpl : α → α → Prop} {al : List Nat} {g g' : Spec.Multigraph α} {m : Nat} {L : Finset α}

/-- the nodes of a graph are numbered -/
structure Numbered (L : Finset α) (g : Spec.Multigraph α) (x : Fin m → α) : Prop where
  layer : ∀ l, g.layer l ↔ l ∈ L
  node : ∀ z, g.node z ↔ ∃ i, z = x i
  inj : Function.Injective x

theorem Numbered.perm {x x' : Fin m → α} (h : Numbered L g x) (h' : Numbered L g' x') {f0 f1 : α → α} (hf : MIso cpl al g g' f0 f1) :
    Set.BijOn f1 {x | x ∈ L} {x | x ∈ L} ∧ ∃ σ : Fin m → Fin m, Function.Injective σ ∧ (∀ i, f0 (x i) = x' (σ i)) ∧
      ∀ i j, MapsSet L f1 (fun l => g.link l (x i) (x j)) (fun l => g'.link l (x' (σ i)) (x' (σ j))) := by
  have hl : {x | g.layer x} = {x | x ∈ L} := Set.ext h.layer
  have hl' : {x | g'.layer x} = {x | x ∈ L} := Set.ext h'.layer
  have hn : ∀ i, g.node (x i) := fun i => (h.node _).2 ⟨i, rfl⟩
  have hex : ∀ i, ∃ j, f0 (x i) = x' j := fun i => (h'.node _).1 (hf.nodes.mapsTo (hn i))
  refine ⟨?_, fun i => (hex i).choose, ?_, fun i => (hex i).choose_spec, fun i j l hl => ?_⟩
  · have := hf.layers
    rwa [hl, hl'] at this
  · intro i j e
    have e' : (hex i).choose = (hex j).choose := e
    have : f0 (x i) = f0 (x j) := by rw [(hex i).choose_spec, (hex j).choose_spec, e']
    exact h.inj (hf.nodes.injOn (hn i) (hn j) this)
  · dsimp only
    rw [← (hex i).choose_spec, ← (hex j).choose_spec]
    exact hf.links l _ _ ((h.layer l).2 hl) (hn i) (hn j)

theorem Numbered.iso {x x' : Fin m → α} (h : Numbered L g x) (h' : Numbered L g' x') (h0 : 0 ∈ al) (h1 : 1 ∈ al) {f1 : α → α}
    (hf : Set.BijOn f1 {x | x ∈ L} {x | x ∈ L}) (hc : ∀ x y, x ∈ L → y ∈ L → (cpl x y ↔ cpl (f1 x) (f1 y))) {s : Fin m → Fin m}
    (hs : Function.Injective s) (hm : ∀ i j, MapsSet L f1 (fun l => g.link l (x i) (x j)) (fun l => g'.link l (x' (s i)) (x' (s j)))) :
    ∃ f0, MIso cpl al g g' f0 f1 ∧ ∀ i, f0 (x i) = x' (s i) := by
  classical
  have hl : {x | g.layer x} = {x | x ∈ L} := Set.ext h.layer
  have hl' : {x | g'.layer x} = {x | x ∈ L} := Set.ext h'.layer
  let f0 : α → α := fun z => if hz : ∃ i, z = x i then x' (s hz.choose) else z
  have hf0 : ∀ i, f0 (x i) = x' (s i) := by
    intro i
    have hz : ∃ j, x i = x j := ⟨i, rfl⟩
    have : hz.choose = i := (h.inj hz.choose_spec).symm
    change (if hz : ∃ j, x i = x j then x' (s hz.choose) else x i) = _
    rw [dif_pos hz, this]
  refine ⟨f0, ⟨fun h => absurd h0 h, fun h => absurd h1 h, ⟨?_, ?_, ?_⟩, by rw [hl, hl']; exact hf, ?_,
    fun a b ha hb => hc a b ((h.layer a).1 ha) ((h.layer b).1 hb)⟩, hf0⟩
  · intro z hz
    obtain ⟨i, rfl⟩ := (h.node z).1 hz
    rw [hf0]
    exact (h'.node _).2 ⟨_, rfl⟩
  · intro z hz w hw e
    obtain ⟨i, rfl⟩ := (h.node z).1 hz
    obtain ⟨j, rfl⟩ := (h.node w).1 hw
    rw [hf0, hf0] at e
    rw [hs (h'.inj e)]
  · intro z hz
    obtain ⟨j, rfl⟩ := (h'.node z).1 hz
    obtain ⟨i, rfl⟩ := Finite.injective_iff_surjective.1 hs j
    exact ⟨x i, (h.node _).2 ⟨i, rfl⟩, hf0 i⟩
  · intro l z w hl hz hw
    obtain ⟨i, rfl⟩ := (h.node z).1 hz
    obtain ⟨j, rfl⟩ := (h.node w).1 hw
    rw [hf0, hf0]
    exact hm i j l ((h.layer l).1 hl)

end numbered

section keep
variable {f0 κ κ' : α → α}

/-- links of the combination -/
theorem glue_links (hI : IntName int neg idx) (h1 : AtOrbit T c idx layers nl N q1 p1 g1 A1) (h2 : AtOrbit T c idx layers nl N q2 p2 g2 A2)
    (hr : RenamesTo neg g2 q1.2.2 q2.2.2 f0) (hκ : Set.BijOn κ {x | g2.layer x} {x | g1.layer x}) :
    (∀ l i j, i ∈ A1 → j ∈ A1 → ((glueG g1 g2 f0 κ).link l i j ↔ g1.link l i j)) ∧
    (∀ l i j, g2.layer l → g2.node i → g2.node j → ((glueG g1 g2 f0 κ).link (κ l) (f0 i) (f0 j) ↔ g2.link l i j)) ∧
    (∀ l i j, i ∈ A1 → i ≠ q1.2.2 → g2.node j → j ≠ q2.2.2 → ¬ (glueG g1 g2 f0 κ).link l i (f0 j)) ∧
    (∀ l i j, (glueG g1 g2 f0 κ).link l i j → (glueG g1 g2 f0 κ).link l j i) ∧ (∀ l i, ¬ (glueG g1 g2 f0 κ).link l i i) := by
  have one : ∀ z, g2.node z → f0 z ∈ A1 → z = q2.2.2 := by
    intro z hz h
    by_contra hne
    have := hr.other z hz hne
    rw [h1.nonneg hI ((h1.mem _).1 h)] at this; cases this
  have ren : ∀ l i j, (renG g2 f0 κ).link l i j → i ∈ A1 → j ∉ A1 := by
    rintro l i j ⟨y, i', j', h, rfl, rfl, rfl⟩ hi hj
    have hn := h2.is.link_node h
    exact hn.2.2.2.1 ((one _ hn.2.1 hi).trans (one _ hn.2.2.1 hj).symm)
  have two : ∀ l i j, g2.layer l → g2.node i → g2.node j → (renG g2 f0 κ).link (κ l) (f0 i) (f0 j) → g2.link l i j := by
    rintro l i j hl hi hj ⟨y, i', j', h, hy, ei, ej⟩
    have hn := h2.is.link_node h
    rw [hκ.injOn hl hn.1 hy, hr.inj i i' hi hn.2.1 ei, hr.inj j j' hj hn.2.2.1 ej]
    exact h
  have hsy : ∀ l i j, (glueG g1 g2 f0 κ).link l i j → (glueG g1 g2 f0 κ).link l j i := by
    rintro l i j (h | h | h)
    · exact Or.inl (h1.is.link_node h).2.2.2.2
    · exact Or.inr (Or.inr h)
    · exact Or.inr (Or.inl h)
  have hself : ∀ l i, ¬ (renG g2 f0 κ).link l i i := by
    rintro l i ⟨y, i', j', h, rfl, rfl, e⟩
    have hn := h2.is.link_node h
    exact hn.2.2.2.1 (hr.inj _ _ hn.2.1 hn.2.2.1 e)
  refine ⟨fun l i j hi hj => ⟨?_, fun h => Or.inl h⟩, fun l i j hl hi hj => ⟨?_, fun h => Or.inr (Or.inl ⟨l, i, j, h, rfl, rfl, rfl⟩)⟩, ?_, hsy, ?_⟩
  · rintro (h | h | h)
    · exact h
    · exact absurd hj (ren l i j h hi)
    · exact absurd hi (ren l j i h hj)
  · rintro (h | h | h)
    · have hn := h1.is.link_node h
      have := (one i hi ((h1.mem _).2 hn.2.1)).trans (one j hj ((h1.mem _).2 hn.2.2.1)).symm
      exact absurd (by rw [this]) hn.2.2.2.1
    · exact two l i j hl hi hj h
    · exact (h2.is.link_node (two l j i hl hj hi h)).2.2.2.2
  · intro l i j hi hiv hj hjo h
    have := (glue_shape hI h1 h2 hr (f1 := κ) (fun x hx => hκ.mapsTo hx)).2 l i (f0 j) h (h1.nonneg hI ((h1.mem _).1 hi)) (hr.other j hj hjo)
    exact hiv this
  · rintro l i (h | h | h)
    · exact (h1.is.link_node h).2.2.2.1 rfl
    · exact hself l i h
    · exact hself l i h

theorem exists_between [Inhabited α] {L : Set α} (hκ : Set.BijOn κ L L) (hκ' : Set.BijOn κ' L L) : ∃ τ, Set.BijOn τ L L ∧ ∀ l ∈ L, τ (κ l) = κ' l := by
  have hi := hκ.invOn_invFunOn
  refine ⟨κ' ∘ Function.invFunOn κ L, hκ'.comp (Set.BijOn.symm hi.symm hκ), fun l hl => ?_⟩
  simp only [Function.comp]
  rw [hi.1 hl]

theorem connected_first {g : Spec.Multigraph α} {s : Finset α} (hc : Spec.ConnectedSet g s) (hv : v ∈ s) {w : α} (hw : w ∈ s) (hwv : w ≠ v) :
    ∃ z ∈ s, ∃ l, g.layer l ∧ g.link l v z := by
  rcases Relation.ReflTransGen.cases_head (hc.connected v w hv hw) with e | ⟨z, ⟨-, hz, l, hl, hk⟩, -⟩
  · exact absurd e.symm hwv
  · exact ⟨z, hz, l, hl, hk⟩

set_option maxHeartbeats 1000000 in
/-- An isomorphism of two combinations of the same graphlets can be replaced by one that keeps the nodes of the first. -/
theorem glue_keep (S : Setup canon str match? allowed c idx layers nl N ord T ol) (hI : IntName int neg idx) (hco : ∀ w, c ≠ .ordinal w)
    (hm1 : 1 ∈ Spec.mayChange 1 allowed) (h1 : AtOrbit T c idx layers nl N q1 p1 g1 A1) (h2 : AtOrbit T c idx layers nl N q2 p2 g2 A2)
    (hl : ∀ x, g1.layer x ↔ g2.layer x) (hc1 : q1.1 = 2) (hc2 : q2.1 ≤ 3) (hr : RenamesTo neg g2 q1.2.2 q2.2.2 f0)
    (hκ : Set.BijOn κ {x | g2.layer x} {x | g2.layer x}) (hκ' : Set.BijOn κ' {x | g2.layer x} {x | g2.layer x}) {F0 F1 : α → α}
    (hF : MIso (cplRel c) (Spec.mayChange 1 allowed) (glueG g1 g2 f0 κ) (glueG g1 g2 f0 κ') F0 F1) :
    ∃ φ π, MIso (cplRel c) (Spec.mayChange 1 allowed) (glueG g1 g2 f0 κ) (glueG g1 g2 f0 κ') φ π ∧ ∀ x ∈ A1, φ x = x := by
  classical
  have : Inhabited α := ⟨q1.2.2⟩
  obtain ⟨ls, -, -, hls⟩ := h1.layer
  set L := ls.toFinset with hL
  have hL1 : ∀ x, g1.layer x ↔ x ∈ L := fun x => by rw [hL, List.mem_toFinset]; exact hls x
  have hL2 : ∀ x, g2.layer x ↔ x ∈ L := fun x => (hl x).symm.trans (hL1 x)
  have hset : {x | g2.layer x} = {x | x ∈ L} := Set.ext hL2
  have hset1 : {x | g1.layer x} = {x | x ∈ L} := Set.ext hL1
  have bκ : Set.BijOn κ {x | g2.layer x} {x | g1.layer x} := by rw [hset1, ← hset]; exact hκ
  have bκ' : Set.BijOn κ' {x | g2.layer x} {x | g1.layer x} := by rw [hset1, ← hset]; exact hκ'
  obtain ⟨τ, hτ, hττ⟩ := exists_between hκ hκ'
  rw [hset] at hτ
  have sh := (glue_shape hI h1 h2 hr (f1 := κ) (fun x hx => bκ.mapsTo hx)).1
  have sh' := (glue_shape hI h1 h2 hr (f1 := κ') (fun x hx => bκ'.mapsTo hx)).1
  obtain ⟨l1, l2, l3, l4, l5⟩ := glue_links hI h1 h2 hr bκ
  obtain ⟨m1, m2, m3, m4, m5⟩ := glue_links hI h1 h2 hr bκ'
  set Γ := glueG g1 g2 f0 κ with hΓ
  set Γ' := glueG g1 g2 f0 κ' with hΓ'
  obtain ⟨a, hav, hA1⟩ : ∃ a, a ≠ q1.2.2 ∧ A1 = {q1.2.2, a} := by
    have : (A1.erase q1.2.2).card = 1 := by rw [Finset.card_erase_of_mem h1.rep, h1.card, hc1]
    obtain ⟨a, ha⟩ := Finset.card_eq_one.1 this
    have ha' : a ∈ A1.erase q1.2.2 := by rw [ha]; exact Finset.mem_singleton_self _
    exact ⟨a, (Finset.mem_erase.1 ha').1, by rw [← Finset.insert_erase h1.rep, ha]⟩
  have haA : a ∈ A1 := by rw [hA1]; simp
  have hvA : q1.2.2 ∈ A1 := h1.rep
  have hva : ¬ NoLayer L (fun l => Γ.link l q1.2.2 a) := by
    obtain ⟨z, hz, l, hl, hk⟩ := connected_first h1.conn h1.rep haA hav
    rw [hA1] at hz
    simp only [Finset.mem_insert, Finset.mem_singleton] at hz
    intro h
    rcases hz with rfl | rfl
    · exact (h1.is.link_node hk).2.2.2.1 rfl
    · exact h l ((hL1 l).1 hl) ((l1 l _ _ hvA haA).2 hk)
  have hsame : ∀ x ∈ L, Γ.link x q1.2.2 a ↔ Γ'.link x q1.2.2 a := fun x _ => (l1 x _ _ hvA haA).trans (m1 x _ _ hvA haA).symm
  have hmaps : ∀ i j, g2.node i → g2.node j → MapsSet L τ (fun l => Γ.link l (f0 i) (f0 j)) (fun l => Γ'.link l (f0 i) (f0 j)) := by
    intro i j hi hj l hl
    obtain ⟨l', hl', rfl⟩ := hκ.surjOn ((hL2 l).2 hl)
    dsimp only
    rw [hττ l' hl', l2 l' i j hl' hi hj, m2 l' i j hl' hi hj]
  have ho : g2.node q2.2.2 := (h2.mem _).1 h2.rep
  have hno : ∀ z, g2.node z → z ≠ q2.2.2 → NoLayer L (fun l => Γ.link l a (f0 z)) ∧ NoLayer L (fun l => Γ'.link l a (f0 z)) :=
    fun z hz hzo => ⟨fun l _ => l3 l a z haA hav hz hzo, fun l _ => m3 l a z haA hav hz hzo⟩
  have nA : ∀ z, g2.node z → z ≠ q2.2.2 → f0 z ∉ A1 := by
    intro z hz hzo h
    have := hr.other z hz hzo
    rw [h1.nonneg hI ((h1.mem _).1 h)] at this; cases this
  have h22 := h2.two
  have hcpl : ∀ π : α → α, Set.BijOn π {x | x ∈ L} {x | x ∈ L} → ∀ x y, x ∈ L → y ∈ L → (cplRel c x y ↔ cplRel c (π x) (π y)) :=
    fun π hπ x y hx hy => cplRel_alike hco ⟨fun e => by rw [e], fun e => hπ.injOn hx hy e⟩
  rcases Nat.lt_or_ge q2.1 3 with hq3 | hq3
  · obtain ⟨x, hxo, hA2⟩ : ∃ x, x ≠ q2.2.2 ∧ A2 = {q2.2.2, x} := by
      have : (A2.erase q2.2.2).card = 1 := by rw [Finset.card_erase_of_mem h2.rep, h2.card]; omega
      obtain ⟨x, hx⟩ := Finset.card_eq_one.1 this
      have hx' : x ∈ A2.erase q2.2.2 := by rw [hx]; exact Finset.mem_singleton_self _
      exact ⟨x, (Finset.mem_erase.1 hx').1, by rw [← Finset.insert_erase h2.rep, hx]⟩
    have hxn : g2.node x := (h2.mem _).1 (by rw [hA2]; simp)
    let e : Fin 3 → α := ![q1.2.2, a, f0 x]
    have hinj : Function.Injective e := by
      have n1 : f0 x ≠ q1.2.2 := fun h => nA x hxn hxo (h ▸ hvA)
      have n2 : f0 x ≠ a := fun h => nA x hxn hxo (h ▸ haA)
      exact inj3 hav.symm n1.symm n2.symm
    have hnode : ∀ z, z ∈ A1 ∪ A2.image f0 ↔ ∃ i, z = e i := by
      intro z
      rw [hA1, hA2]
      simp only [Finset.mem_union, Finset.mem_insert, Finset.mem_singleton, Finset.image_insert, Finset.image_singleton, hr.rep]
      constructor
      · rintro ((h | h) | h | h)
        exacts [⟨0, h⟩, ⟨1, h⟩, ⟨0, h⟩, ⟨2, h⟩]
      · rintro ⟨i, h⟩
        fin_cases i
        exacts [Or.inl (Or.inl h), Or.inl (Or.inr h), Or.inr (Or.inr h)]
    have hN : Numbered L Γ e := ⟨fun l => (sh.layer l).trans (hL1 l), fun z => (sh.node z).symm.trans (hnode z), hinj⟩
    have hN' : Numbered L Γ' e := ⟨fun l => (sh'.layer l).trans (hL1 l), fun z => (sh'.node z).symm.trans (hnode z), hinj⟩
    have hH : Hang3 L (fun i j l => Γ.link l (e i) (e j)) (fun i j l => Γ'.link l (e i) (e j)) τ := by
      refine ⟨⟨fun i j l _ => ⟨l4 l _ _, l4 l _ _⟩, fun i l _ => l5 l _⟩, ⟨fun i j l _ => ⟨m4 l _ _, m4 l _ _⟩, fun i l _ => m5 l _⟩, hτ, hsame, hva,
        hno x hxn hxo, ?_, ?_⟩
      · have := hmaps q2.2.2 x ho hxn
        rw [hr.rep] at this
        exact this
      · obtain ⟨z, hz, l, hl, hk⟩ := connected_first h2.conn h2.rep ((h2.mem _).2 hxn) hxo
        rw [hA2] at hz
        simp only [Finset.mem_insert, Finset.mem_singleton] at hz
        intro h
        rcases hz with rfl | rfl
        · exact (h2.is.link_node hk).2.2.2.1 rfl
        · have := (l2 l _ _ hl ho hxn).2 hk
          rw [hr.rep] at this
          exact h _ ((hL1 _).1 (bκ.mapsTo hl)) this
    obtain ⟨hF1, σ', hσ, -, hm⟩ := hN.perm hN' hF
    obtain ⟨π, s', b1, b2, b3, b4, b5⟩ := hH.keep hF1 hσ hm
    obtain ⟨φ, hφ, hφe⟩ := hN.iso hN' (cpl := cplRel c) S.nodes hm1 b1 (hcpl π b1) b2 b5
    refine ⟨φ, π, hφ, fun z hz => ?_⟩
    rw [hA1] at hz
    simp only [Finset.mem_insert, Finset.mem_singleton] at hz
    rcases hz with rfl | rfl
    · have := hφe 0; rw [b3] at this; exact this
    · have := hφe 1; rw [b4] at this; exact this
  · obtain ⟨x, y, hxo, hyo, hxy, hA2⟩ : ∃ x y, x ≠ q2.2.2 ∧ y ≠ q2.2.2 ∧ x ≠ y ∧ A2 = {q2.2.2, x, y} := by
      have : (A2.erase q2.2.2).card = 2 := by rw [Finset.card_erase_of_mem h2.rep, h2.card]; omega
      obtain ⟨x, y, hxy, hx⟩ := Finset.card_eq_two.1 this
      have hx' : x ∈ A2.erase q2.2.2 := by rw [hx]; simp
      have hy' : y ∈ A2.erase q2.2.2 := by rw [hx]; simp
      exact ⟨x, y, (Finset.mem_erase.1 hx').1, (Finset.mem_erase.1 hy').1, hxy, by rw [← Finset.insert_erase h2.rep, hx]⟩
    have hxn : g2.node x := (h2.mem _).1 (by rw [hA2]; simp)
    have hyn : g2.node y := (h2.mem _).1 (by rw [hA2]; simp)
    let e : Fin 4 → α := ![q1.2.2, a, f0 x, f0 y]
    have hinj : Function.Injective e := by
      have n1 : f0 x ≠ q1.2.2 := fun h => nA x hxn hxo (h ▸ hvA)
      have n2 : f0 x ≠ a := fun h => nA x hxn hxo (h ▸ haA)
      have n3 : f0 y ≠ q1.2.2 := fun h => nA y hyn hyo (h ▸ hvA)
      have n4 : f0 y ≠ a := fun h => nA y hyn hyo (h ▸ haA)
      have n5 : f0 x ≠ f0 y := fun h => hxy (hr.inj x y hxn hyn h)
      exact inj4 hav.symm n1.symm n3.symm n2.symm n4.symm n5
    have hnode : ∀ z, z ∈ A1 ∪ A2.image f0 ↔ ∃ i, z = e i := by
      intro z
      rw [hA1, hA2]
      simp only [Finset.mem_union, Finset.mem_insert, Finset.mem_singleton, Finset.image_insert, Finset.image_singleton, hr.rep]
      constructor
      · rintro ((h | h) | h | h | h)
        exacts [⟨0, h⟩, ⟨1, h⟩, ⟨0, h⟩, ⟨2, h⟩, ⟨3, h⟩]
      · rintro ⟨i, h⟩
        fin_cases i
        exacts [Or.inl (Or.inl h), Or.inl (Or.inr h), Or.inr (Or.inr (Or.inl h)), Or.inr (Or.inr (Or.inr h))]
    have hN : Numbered L Γ e := ⟨fun l => (sh.layer l).trans (hL1 l), fun z => (sh.node z).symm.trans (hnode z), hinj⟩
    have hN' : Numbered L Γ' e := ⟨fun l => (sh'.layer l).trans (hL1 l), fun z => (sh'.node z).symm.trans (hnode z), hinj⟩
    have hH : Hang4 L (fun i j l => Γ.link l (e i) (e j)) (fun i j l => Γ'.link l (e i) (e j)) τ := by
      refine ⟨⟨fun i j l _ => ⟨l4 l _ _, l4 l _ _⟩, fun i l _ => l5 l _⟩, ⟨fun i j l _ => ⟨m4 l _ _, m4 l _ _⟩, fun i l _ => m5 l _⟩, hτ, hsame, hva,
        hno x hxn hxo, hno y hyn hyo, ?_, ?_, hmaps x y hxn hyn, ?_⟩
      · have := hmaps q2.2.2 x ho hxn
        rw [hr.rep] at this
        exact this
      · have := hmaps q2.2.2 y ho hyn
        rw [hr.rep] at this
        exact this
      · obtain ⟨z, hz, l, hl, hk⟩ := connected_first h2.conn h2.rep ((h2.mem _).2 hxn) hxo
        rw [hA2] at hz
        simp only [Finset.mem_insert, Finset.mem_singleton] at hz
        rintro ⟨k1, k2⟩
        rcases hz with rfl | rfl | rfl
        · exact (h2.is.link_node hk).2.2.2.1 rfl
        · have := (l2 l _ _ hl ho hxn).2 hk
          rw [hr.rep] at this
          exact k1 _ ((hL1 _).1 (bκ.mapsTo hl)) this
        · have := (l2 l _ _ hl ho hyn).2 hk
          rw [hr.rep] at this
          exact k2 _ ((hL1 _).1 (bκ.mapsTo hl)) this
    obtain ⟨hF1, σ', hσ, -, hm⟩ := hN.perm hN' hF
    obtain ⟨π, s', b1, b2, b3, b4, b5⟩ := hH.keep hF1 hσ hm
    obtain ⟨φ, hφ, hφe⟩ := hN.iso hN' (cpl := cplRel c) S.nodes hm1 b1 (hcpl π b1) b2 b5
    refine ⟨φ, π, hφ, fun z hz => ?_⟩
    rw [hA1] at hz
    simp only [Finset.mem_insert, Finset.mem_singleton] at hz
    rcases hz with rfl | rfl
    · have := hφe 0; rw [b3] at this; exact this
    · have := hφe 1; rw [b4] at this; exact this

/-- additional links are carried along -/
theorem addK_iso {cpl : α → α → Prop} {al : List Nat} {g g' : Spec.Multigraph α} {φ π : α → α} (h : MIso cpl al g g' φ π) {K : α → α → α → Prop}
    (hK : ∀ x i j, K x i j → g.layer x ∧ g.node i ∧ g.node j) :
    MIso cpl al (addK g K) (addK g' fun y i j => ∃ x a b, K x a b ∧ y = π x ∧ i = φ a ∧ j = φ b) φ π := by
  have n1 : ∀ z, (addK g K).node z ↔ g.node z := by
    intro z
    constructor
    · rintro (h | ⟨x, i, j, hk, rfl | rfl⟩)
      exacts [h, (hK _ _ _ hk).2.1, (hK _ _ _ hk).2.2]
    · exact Or.inl
  have l1 : ∀ z, (addK g K).layer z ↔ g.layer z := by
    intro z
    constructor
    · rintro (h | ⟨i, j, hk⟩)
      exacts [h, (hK _ _ _ hk).1]
    · exact Or.inl
  have n2 : ∀ z, (addK g' fun y i j => ∃ x a b, K x a b ∧ y = π x ∧ i = φ a ∧ j = φ b).node z ↔ g'.node z := by
    intro z
    constructor
    · rintro (h' | ⟨x, i, j, ⟨y, a, b, hk, rfl, rfl, rfl⟩, rfl | rfl⟩)
      exacts [h', h.nodes.mapsTo (hK _ _ _ hk).2.1, h.nodes.mapsTo (hK _ _ _ hk).2.2]
    · exact Or.inl
  have l2 : ∀ z, (addK g' fun y i j => ∃ x a b, K x a b ∧ y = π x ∧ i = φ a ∧ j = φ b).layer z ↔ g'.layer z := by
    intro z
    constructor
    · rintro (h' | ⟨i, j, ⟨y, a, b, hk, rfl, rfl, rfl⟩⟩)
      exacts [h', h.layers.mapsTo (hK _ _ _ hk).1]
    · exact Or.inl
  refine ⟨h.fix0, h.fix1, ?_, ?_, fun x i j hx hi hj => ?_, fun x y hx hy => h.coupled x y ((l1 x).1 hx) ((l1 y).1 hy)⟩
  · rw [show {x | (addK g K).node x} = {x | g.node x} from Set.ext n1, show {x | (addK g' fun y i j => ∃ x a b, K x a b ∧ y = π x ∧ i = φ a ∧ j = φ b).node x} = {x | g'.node x} from Set.ext n2]
    exact h.nodes
  · rw [show {x | (addK g K).layer x} = {x | g.layer x} from Set.ext l1, show {x | (addK g' fun y i j => ∃ x a b, K x a b ∧ y = π x ∧ i = φ a ∧ j = φ b).layer x} = {x | g'.layer x} from Set.ext l2]
    exact h.layers
  · rw [l1] at hx
    rw [n1] at hi hj
    have key : ∀ i j, g.node i → g.node j → (K x i j ↔ ∃ y a b, K y a b ∧ π x = π y ∧ φ i = φ a ∧ φ j = φ b) := by
      intro i j hi hj
      constructor
      · intro k; exact ⟨x, i, j, k, rfl, rfl, rfl⟩
      · rintro ⟨y, a, b, k, e1, e2, e3⟩
        obtain ⟨k1, k2, k3⟩ := hK _ _ _ k
        rw [h.layers.injOn hx k1 e1, h.nodes.injOn hi k2 e2, h.nodes.injOn hj k3 e3]
        exact k
    exact or_congr (h.links x i j hx hi hj) (or_congr (key i j hi hj) (key j i hj hi))

end keep

end Pymnet
