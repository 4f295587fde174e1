import Verif.Proofs.IsomNet

/-! Isomorphism functions on networks of any kind. -/

set_option linter.unusedSectionVars false
set_option linter.unusedSimpArgs false

namespace Pymnet

open Py

variable {α W : Type} [DecidableEq α] [DecidableEq W] [LinearOrder α]

theorem Spec.Isomorphism.congr {d : Nat} {al : List Nat} {S S' T T' : Nat → α → Prop} {NL NL' ML ML' : List α → Prop}
    {L L' M M' : List α → List α → Prop} {f f' : Nat → α → α}
    (h : Spec.Isomorphism d al S NL L S' NL' L' f)
    (hS : ∀ a ≤ d, ∀ x, S a x ↔ T a x) (hS' : ∀ a ≤ d, ∀ x, S' a x ↔ T' a x)
    (hN : ∀ u, NL u ↔ ML u) (hN' : ∀ u, NL' u ↔ ML' u)
    (hL : ∀ u v, NL u → NL v → (L u v ↔ M u v)) (hL' : ∀ u v, NL' u → NL' v → (L' u v ↔ M' u v))
    (hlen : ∀ u, NL u → u.length = d + 1) (hnm : ∀ u, NL u → ∀ (a : Nat) x, u[a]? = some x → S a x)
    (hf : ∀ a ≤ d, ∀ x, S a x → f' a x = f a x) (hfix : ∀ a ≤ d, a ∉ al → ∀ x, f' a x = x) :
    Spec.Isomorphism d al T ML M T' ML' M' f' := by
  have happ : ∀ u, NL u → Spec.applyTo f' u = Spec.applyTo f u := by
    intro u hu
    apply List.ext_getElem?
    intro a
    rw [getElem?_applyTo, getElem?_applyTo]
    cases hx : u[a]? with
    | none => rfl
    | some x =>
      have : a ≤ d := by have := (List.getElem?_eq_some_iff.1 hx).1; have := hlen u hu; omega
      simp only [Option.map_some]
      rw [hf a this x (hnm u hu a x hx)]
  refine ⟨hfix, fun a ha hal => ?_, fun u => ?_, fun u v hu hv => ?_⟩
  · have hb := h.bij a ha hal
    have e1 : {x | S a x} = {x | T a x} := Set.ext fun x => hS a ha x
    have e2 : {x | S' a x} = {x | T' a x} := Set.ext fun x => hS' a ha x
    rw [← e1, ← e2]
    exact hb.congr fun x hx => (hf a ha x hx).symm
  · rw [← hN', h.nodeLayers]
    refine exists_congr fun nl => ?_
    rw [← hN]
    exact and_congr_right fun hnl => by rw [happ nl hnl]
  · have hu' := (hN u).2 hu
    have hv' := (hN v).2 hv
    rw [← hL u v hu' hv', h.links u v hu' hv', happ u hu', happ v hv']
    exact hL' _ _ ((h.nodeLayers _).2 ⟨u, hu', rfl⟩) ((h.nodeLayers _).2 ⟨v, hv', rfl⟩)

/-- Internal: what a view shows to the isomorphism functions. -/
structure Shows (v : View α W) (d : Nat) (S : Nat → α → Prop) (NL : List α → Prop) (L : List α → List α → Prop) : Prop where
  sound : ∃ R, v.Sound R ∧ ∀ u w, NL u → NL w → (L u w ↔ R u w ≠ v.noEdge)
  undir : v.directed = false
  dim : v.aspects = d
  inS : ∀ a ≤ d, ∀ x, v.inS a x ↔ S a x
  nls : ∃ l, v.nodeLayers = .ok l ∧ ∀ nl, nl ∈ l ↔ NL nl

section two

variable {v w : View α W} {d : Nat} {S S' : Nat → α → Prop} {NL NL' : List α → Prop} {L L' : List α → List α → Prop}
  {R R' : List α → List α → W} {nls nls' : List (List α)} {allowed : Option (List Nat)}

theorem Shows.aux (h : Shows v d S NL L) (hd : 1 ≤ d) (hal : ∀ a ∈ Spec.mayChange d allowed, a ≤ d) :
    ∃ R nls A aux, v.Sound R ∧ v.nodeLayers = .ok nls ∧ (∀ nl, nl ∈ nls ↔ NL nl) ∧ (∀ u w, NL u → NL w → (L u w ↔ R u w ≠ v.noEdge)) ∧
      v.auxGraph allowed = .ok A ∧ AuxSpec v R nls (Spec.mayChange d allowed) A aux := by
  obtain ⟨R, h1, h2⟩ := h.sound
  obtain ⟨nls, h3, h4⟩ := h.nls
  have e : allowedAspects v.aspects allowed = Spec.mayChange d allowed := by rw [h.dim]; cases allowed <;> rfl
  obtain ⟨A, aux, h5, h6⟩ := auxGraph_spec h1 h.undir (by rw [h.dim]; exact hd) h3 allowed (by
    rw [e, h.dim]; exact hal)
  rw [e] at h6
  exact ⟨R, nls, A, aux, h1, h3, h4, h2, h5, h6⟩

theorem transfer (h : Shows v d S NL L) (h' : Shows w d S' NL' L') {al : List Nat}
    (hn : ∀ nl, nl ∈ nls ↔ NL nl) (hL : ∀ u w, NL u → NL w → (L u w ↔ R u w ≠ v.noEdge))
    (hn' : ∀ nl, nl ∈ nls' ↔ NL' nl) (hL' : ∀ u x, NL' u → NL' x → (L' u x ↔ R' u x ≠ w.noEdge))
    (hlen : ∀ u, NL u → u.length = d + 1) (hnm : ∀ u, NL u → ∀ (a : Nat) x, u[a]? = some x → S a x) (f : Nat → α → α) :
    Spec.Isomorphism d al S NL L S' NL' L' f ↔
      Spec.Isomorphism v.aspects al v.inS (· ∈ nls) (fun a b => R a b ≠ v.noEdge) w.inS (· ∈ nls')
        (fun a b => R' a b ≠ w.noEdge) f := by
  rw [h.dim]
  constructor
  · intro hf
    exact hf.congr (fun a ha x => (h.inS a ha x).symm) (fun a ha x => (h'.inS a ha x).symm) (fun u => (hn u).symm)
      (fun u => (hn' u).symm) hL hL' hlen hnm (fun _ _ _ _ => rfl) hf.fixed
  · intro hf
    refine hf.congr h.inS h'.inS hn hn' (fun u v hu hv => (hL u v ((hn u).1 hu) ((hn v).1 hv)).symm)
      (fun u v hu hv => (hL' u v ((hn' u).1 hu) ((hn' v).1 hv)).symm) (fun u hu => hlen u ((hn u).1 hu)) ?_
      (fun _ _ _ _ => rfl) hf.fixed
    intro u hu a x hx
    have : a ≤ d := by
      have := (List.getElem?_eq_some_iff.1 hx).1; have := hlen u ((hn u).1 hu); omega
    exact (h.inS a this x).2 (hnm u ((hn u).1 hu) a x hx)

theorem Shows.names (h : Shows v d S NL L) : (∀ u, NL u → u.length = d + 1) ∧
    ∀ u, NL u → ∀ (a : Nat) x, u[a]? = some x → S a x := by
  obtain ⟨R, h1, h2⟩ := h.sound
  obtain ⟨nls, h3, h4⟩ := h.nls
  obtain ⟨l, n1, n2, n3, n4⟩ := h1.nls
  rw [h3] at n1; cases n1
  have hlen : ∀ u, NL u → u.length = d + 1 := fun u hu => by
    rw [h1.length_of_mem (n3 u ((h4 u).2 hu)), h.dim]
  refine ⟨hlen, fun u hu a x hx => ?_⟩
  have : a ≤ d := by have := (List.getElem?_eq_some_iff.1 hx).1; have := hlen u hu; omega
  exact (h.inS a this x).1 (((h1.mem_product u).1 (n3 u ((h4 u).2 hu))).2 a x hx)

theorem ncard_colors (hn : ∀ nl, nl ∈ nls ↔ NL nl) (al : List Nat) :
    {c | ∃ nl, NL nl ∧ c = Spec.pickFixed d al nl}.ncard = (colorList (nonAllowed d al) nls).length := by
  apply MNet.ncard_of_list (colorList_nodup _ _)
  intro c
  rw [mem_colorList]
  simp only [Set.mem_setOf_eq, hn]
  rfl

/-- the isomorphism given by dictionaries -/
theorem iso_permOf (h : Shows v d S NL L) {al : List Nat} {f : Nat → α → α} {inc : Bool} {m : List (Dict α α)}
    (hf : Spec.Isomorphism d al S NL L S' NL' L' f)
    (hm : Entries v.aspects m (fun a x y => v.inS a x ∧ y = f a x ∧ (inc = true ∨ x ≠ y))) :
    Spec.Isomorphism d al S NL L S' NL' L' (Spec.permOf m) := by
  refine hf.congr (fun _ _ _ => Iff.rfl) (fun _ _ _ => Iff.rfl) (fun _ => Iff.rfl) (fun _ => Iff.rfl)
    (fun _ _ _ _ => Iff.rfl) (fun _ _ _ _ => Iff.rfl) h.names.1 h.names.2 ?_ ?_
  · intro a ha x hx
    rw [permOf_eq hm (by rw [h.dim]; exact ha), if_pos ((h.inS a ha x).2 hx)]
  · intro a ha hal x
    rw [permOf_eq hm (by rw [h.dim]; exact ha)]
    split
    · exact hf.fixed a ha hal x
    · rfl

open Classical in
/-- Internal: the isomorphism functions. -/
theorem iso_core (h : Shows v d S NL L) (h' : Shows w d S' NL' L') (hd : 1 ≤ d)
    (hal : ∀ a ∈ Spec.mayChange d allowed, a ≤ d) {match? : CGraph → CGraph → Option (Dict Nat Nat)}
    (hF : Spec.FindsIso match?) (inc : Bool) :
    ((∃ f, Spec.Isomorphism d (Spec.mayChange d allowed) S NL L S' NL' L' f) →
      isIsomorphic match? v w allowed = .ok true ∧
      ∃ m, getIsomorphism match? v w allowed inc = .ok (some m) ∧ m.length = d + 1 ∧
        Spec.Isomorphism d (Spec.mayChange d allowed) S NL L S' NL' L' (Spec.permOf m) ∧
        ∀ a ≤ d, ∃ D, m[a]? = some D ∧ ∀ x, x ∈ Dict.keys D ↔ S a x ∧ (inc = true ∨ Spec.permOf m a x ≠ x)) ∧
    ((¬ ∃ f, Spec.Isomorphism d (Spec.mayChange d allowed) S NL L S' NL' L' f) →
      if Spec.mayChange d allowed = [] ∨
          {c | ∃ nl, NL nl ∧ c = Spec.pickFixed d (Spec.mayChange d allowed) nl}.ncard =
          {c | ∃ nl, NL' nl ∧ c = Spec.pickFixed d (Spec.mayChange d allowed) nl}.ncard then
        isIsomorphic match? v w allowed = .ok false ∧ getIsomorphism match? v w allowed inc = .ok none
      else isIsomorphic match? v w allowed = .error .assertionError ∧
        getIsomorphism match? v w allowed inc = .error .assertionError) := by
  obtain ⟨R, nls, A, aux, hs, hn1, hn, hL, hA1, hA⟩ := h.aux hd hal
  obtain ⟨R', nls', B, aux', hs', hn1', hn', hL', hB1, hB⟩ := h'.aux hd hal
  have hdim : w.aspects = v.aspects := by rw [h.dim, h'.dim]
  have hT := transfer (al := Spec.mayChange d allowed) h h' hn hL hn' hL' h.names.1 h.names.2
  rw [ncard_colors hn, ncard_colors hn']
  have hcmp := hA.compare hB hdim match?
  rw [h.dim] at hcmp
  have hI : isIsomorphic match? v w allowed = A.compare match? B := by
    simp only [isIsomorphic, hA1, hB1]
  set al := Spec.mayChange d allowed with hall
  constructor
  · rintro ⟨f, hf⟩
    have hcol : colorList (nonAllowed d al) nls = colorList (nonAllowed d al) nls' := by
      have := iso_colors ((hT f).1 hf); rwa [h.dim] at this
    obtain ⟨φ, hφ, -⟩ := hA.graph_of_iso hB hdim ((hT f).1 hf)
    cases hm : match? A.graph B.graph with
    | none => exact absurd ⟨φ, hφ⟩ ((hF _ _ hA.coded.colored hB.coded.colored).2 hm)
    | some P =>
      rw [if_pos (Or.inl (by rw [hcol])), hm, decide_eq_true hcol] at hcmp
      simp only [Option.isSome_some, Bool.and_self] at hcmp
      obtain ⟨ψ, hψ, hP⟩ := (hF _ _ hA.coded.colored hB.coded.colored).1 P hm
      obtain ⟨g, g1, g2, g3⟩ := hA.iso_of_graph hB hdim (by rw [h.dim]; exact hcol) hψ
      obtain ⟨m, m1, m2⟩ := hA.perms hB g2 g3 hP inc
      have hg := (hT g).2 g1
      refine ⟨hI.trans hcmp, m, by simp only [getIsomorphism, hA1, hB1, hcmp, hm, m1], ?_, iso_permOf h hg m2, ?_⟩
      · rw [m2.1, h.dim]
      · intro a ha
        obtain ⟨D, d1, d2⟩ := m2.2 a (by rw [h.dim]; exact ha)
        refine ⟨D, d1, fun x => ?_⟩
        rw [Dict.mem_keys, Option.isSome_iff_exists, permOf_eq m2 (by rw [h.dim]; exact ha), ← h.inS a ha]
        constructor
        · rintro ⟨y, hy⟩
          obtain ⟨e1, rfl, e3⟩ := (d2 x y).1 hy
          rw [if_pos e1]
          exact ⟨e1, e3.imp_right Ne.symm⟩
        · rintro ⟨e1, e2⟩
          rw [if_pos e1] at e2
          exact ⟨g a x, (d2 x _).2 ⟨e1, rfl, e2.imp_right Ne.symm⟩⟩
  · intro hno
    by_cases hc : (colorList (nonAllowed d al) nls).length = (colorList (nonAllowed d al) nls').length ∨ al = []
    · rw [if_pos hc.symm]
      rw [if_pos hc] at hcmp
      have hfalse : A.compare match? B = .ok false := by
        rw [hcmp]
        by_cases hcol : colorList (nonAllowed d al) nls = colorList (nonAllowed d al) nls'
        · cases hm : match? A.graph B.graph with
          | none => simp
          | some P =>
            obtain ⟨ψ, hψ, hP⟩ := (hF _ _ hA.coded.colored hB.coded.colored).1 P hm
            obtain ⟨g, g1, -⟩ := hA.iso_of_graph hB hdim (by rw [h.dim]; exact hcol) hψ
            exact absurd ⟨g, (hT g).2 g1⟩ hno
        · rw [decide_eq_false hcol]; simp
      exact ⟨hI.trans hfalse, by simp only [getIsomorphism, hA1, hB1, hfalse]⟩
    · rw [if_neg (fun h => hc h.symm)]
      rw [if_neg hc] at hcmp
      exact ⟨hI.trans hcmp, by simp only [getIsomorphism, hA1, hB1, hcmp]⟩

/-- Internal: complete invariants. -/
theorem invariant_core {β : Type} (h : Shows v d S NL L) (h' : Shows w d S' NL' L') (hd : 1 ≤ d)
    (hal : ∀ a ∈ Spec.mayChange d allowed, a ≤ d) {canon : CGraph → β} (hC : Spec.Canonical canon) :
    ∃ c c', completeInvariant canon v allowed = .ok c ∧ completeInvariant canon w allowed = .ok c' ∧
      (c = c' ↔ ∃ f, Spec.Isomorphism d (Spec.mayChange d allowed) S NL L S' NL' L' f) := by
  obtain ⟨R, nls, A, aux, hs, hn1, hn, hL, hA1, hA⟩ := h.aux hd hal
  obtain ⟨R', nls', B, aux', hs', hn1', hn', hL', hB1, hB⟩ := h'.aux hd hal
  have hdim : w.aspects = v.aspects := by rw [h.dim, h'.dim]
  have hT := transfer (al := Spec.mayChange d allowed) h h' hn hL hn' hL' h.names.1 h.names.2
  refine ⟨(A.colormap.insertionSort (fun p q => p.1 ≤ q.1), canon A.graph),
    (B.colormap.insertionSort (fun p q => p.1 ≤ q.1), canon B.graph),
    by simp only [completeInvariant, hA1], by simp only [completeInvariant, hB1], ?_⟩
  set al := Spec.mayChange d allowed with hall
  rw [Prod.mk.injEq, hC _ _ hA.coded.colored hB.coded.colored, hA.colormap, hB.colormap, h.dim, h'.dim]
  constructor
  · rintro ⟨h1, φ, hφ⟩
    have hcol : colorList (nonAllowed d al) nls = colorList (nonAllowed d al) nls' := by
      have hp : ((colorList (nonAllowed d al) nls).zipIdx).Perm ((colorList (nonAllowed d al) nls').zipIdx) :=
        (List.perm_insertionSort _ _).symm.trans (by rw [h1]; exact List.perm_insertionSort _ _)
      have hp' := hp.map Prod.fst
      simp only [List.zipIdx_map_fst] at hp'
      rw [colorList_ext]
      intro c
      rw [← mem_colorList, ← mem_colorList, hp'.mem_iff]
    obtain ⟨g, g1, -⟩ := hA.iso_of_graph hB hdim (by rw [h.dim]; exact hcol) hφ
    exact ⟨g, (hT g).2 g1⟩
  · rintro ⟨f, hf⟩
    obtain ⟨φ, hφ, -⟩ := hA.graph_of_iso hB hdim ((hT f).1 hf)
    have hcol : colorList (nonAllowed d al) nls = colorList (nonAllowed d al) nls' := by
      have := iso_colors ((hT f).1 hf); rwa [h.dim] at this
    exact ⟨by rw [hcol], φ, hφ⟩

/-- Internal: automorphism generators. -/
theorem generators_core (h : Shows v d S NL L) (hd : 1 ≤ d)
    (hal : ∀ a ∈ Spec.mayChange d allowed, a ≤ d) {gens : CGraph → List (Dict Nat Nat)} (hG : Spec.FindsGens gens)
    (inc : Bool) :
    ∃ ms, automorphismGenerators gens v allowed inc = .ok ms ∧
      (∀ m ∈ ms, m.length = d + 1 ∧ Spec.Isomorphism d (Spec.mayChange d allowed) S NL L S NL L (Spec.permOf m) ∧
        ∀ a ≤ d, ∃ D, m[a]? = some D ∧ ∀ x, x ∈ Dict.keys D ↔ S a x ∧ (inc = true ∨ Spec.permOf m a x ≠ x)) ∧
      ∀ f, Spec.Isomorphism d (Spec.mayChange d allowed) S NL L S NL L f →
        ∃ ms' : List (List (Dict α α)), (∀ m ∈ ms', m ∈ ms) ∧
          ∀ a ≤ d, ∀ x, S a x → f a x = ms'.foldr (fun m y => Spec.permOf m a y) x := by
  obtain ⟨R, nls, A, aux, hs, hn1, hn, hL, hA1, hA⟩ := h.aux hd hal
  have hT := transfer (al := Spec.mayChange d allowed) h h hn hL hn hL h.names.1 h.names.2
  set al := Spec.mayChange d allowed with hall
  obtain ⟨G1, G2⟩ := hG A.graph hA.coded.colored
  have step : ∀ P ∈ gens A.graph, ∃ m, A.perms A P inc = .ok m ∧ (m.length = d + 1 ∧
      Spec.Isomorphism d al S NL L S NL L (Spec.permOf m) ∧
        ∀ a ≤ d, ∃ D, m[a]? = some D ∧ ∀ x, x ∈ Dict.keys D ↔ S a x ∧ (inc = true ∨ Spec.permOf m a x ≠ x)) ∧
      ∀ p ∈ aux, (p.1, Spec.permOf m p.1 p.2) ∈ aux ∧
        Dict.get P (nls.length + aux.idxOf p) = some (nls.length + aux.idxOf (p.1, Spec.permOf m p.1 p.2)) := by
    intro P hP
    obtain ⟨ψ, hψ, hP'⟩ := G1 P hP
    obtain ⟨g, g1, g2, g3⟩ := hA.iso_of_graph hA rfl rfl hψ
    obtain ⟨m, m1, m2⟩ := hA.perms hA g2 g3 hP' inc
    have hg := (hT g).2 g1
    refine ⟨m, m1, ⟨by rw [m2.1, h.dim], iso_permOf h hg m2, ?_⟩, ?_⟩
    · intro a ha
      obtain ⟨D, d1, d2⟩ := m2.2 a (by rw [h.dim]; exact ha)
      refine ⟨D, d1, fun x => ?_⟩
      rw [Dict.mem_keys, Option.isSome_iff_exists, permOf_eq m2 (by rw [h.dim]; exact ha), ← h.inS a ha]
      constructor
      · rintro ⟨y, hy⟩
        obtain ⟨e1, rfl, e3⟩ := (d2 x y).1 hy
        rw [if_pos e1]
        exact ⟨e1, e3.imp_right Ne.symm⟩
      · rintro ⟨e1, e2⟩
        rw [if_pos e1] at e2
        exact ⟨g a x, (d2 x _).2 ⟨e1, rfl, e2.imp_right Ne.symm⟩⟩
    · rintro ⟨a, x⟩ hp
      obtain ⟨ha, hx⟩ := (hA.names.aux_iff a x).1 hp
      have e : Spec.permOf m a x = g a x := by rw [permOf_eq m2 (hA.names.le a ha), if_pos hx]
      simp only [e]
      obtain ⟨q1, q2⟩ := g2 _ hp
      exact ⟨q1, by rw [hP' _ ((hA.coded.node _).2 (Or.inr ⟨_, hp, rfl⟩)), q2]⟩
  have hloop : ∃ ms, forE (fun l perm => match A.perms A perm inc with
      | .error e => .error e
      | .ok m => .ok (l ++ [m])) (gens A.graph) [] = .ok ms ∧
      (∀ m ∈ ms, ∃ P ∈ gens A.graph, A.perms A P inc = .ok m) ∧
      ∀ P ∈ gens A.graph, ∀ m, A.perms A P inc = .ok m → m ∈ ms := by
    refine (forE_ok (P := fun pre ms => (∀ m ∈ ms, ∃ P ∈ gens A.graph, A.perms A P inc = .ok m) ∧
      ∀ P ∈ pre, ∀ m, A.perms A P inc = .ok m → m ∈ ms) (gens A.graph) (by simp) ?_)
    rintro pre P post ms hl ⟨i1, i2⟩
    have hP : P ∈ gens A.graph := by rw [hl]; simp
    obtain ⟨m, m1, -⟩ := step P hP
    refine ⟨ms ++ [m], by simp only [m1], ?_, ?_⟩
    · intro m' hm'
      rcases List.mem_append.1 hm' with hm' | hm'
      · exact i1 m' hm'
      · rw [List.mem_singleton.1 hm']; exact ⟨P, hP, m1⟩
    · intro P' hP' m' hm'
      rcases List.mem_append.1 hP' with hP' | hP'
      · exact List.mem_append_left _ (i2 P' hP' m' hm')
      · rw [List.mem_singleton.1 hP', m1] at hm'
        cases hm'; simp
  obtain ⟨ms, l1, l2, l3⟩ := hloop
  refine ⟨ms, by simp only [automorphismGenerators, hA1]; exact l1, ?_, ?_⟩
  · intro m hm
    obtain ⟨P, hP, hm'⟩ := l2 m hm
    obtain ⟨m'', m1, m2, -⟩ := step P hP
    rw [hm'] at m1; cases m1
    exact m2
  · intro f hf
    obtain ⟨φ, hφ, hφf⟩ := hA.graph_of_iso hA rfl ((hT f).1 hf)
    obtain ⟨Ps, p1, p2⟩ := G2 φ hφ
    have hcomp : ∀ Ps : List (Dict Nat Nat), (∀ P ∈ Ps, P ∈ gens A.graph) →
        ∃ ms' : List (List (Dict α α)), (∀ m ∈ ms', m ∈ ms) ∧ ∀ p ∈ aux,
          (p.1, ms'.foldr (fun m y => Spec.permOf m p.1 y) p.2) ∈ aux ∧
          Ps.foldr (fun P j => (Dict.get P j).getD j) (nls.length + aux.idxOf p) =
            nls.length + aux.idxOf (p.1, ms'.foldr (fun m y => Spec.permOf m p.1 y) p.2) := by
      intro Ps
      induction Ps with
      | nil => exact fun _ => ⟨[], by simp, fun p hp => ⟨hp, rfl⟩⟩
      | cons P Ps ih =>
        intro hPs
        obtain ⟨ms', i1, i2⟩ := ih fun P hP => hPs P (by simp [hP])
        obtain ⟨m, m1, -, m3⟩ := step P (hPs P (by simp))
        refine ⟨m :: ms', ?_, fun p hp => ?_⟩
        · intro m' hm'
          rcases List.mem_cons.1 hm' with rfl | hm'
          · exact l3 P (hPs P (by simp)) _ m1
          · exact i1 m' hm'
        · obtain ⟨j1, j2⟩ := i2 p hp
          obtain ⟨k1, k2⟩ := m3 _ j1
          simp only [List.foldr_cons]
          refine ⟨k1, ?_⟩
          rw [j2, k2]; rfl
    obtain ⟨ms', i1, i2⟩ := hcomp Ps p1
    refine ⟨ms', i1, fun a ha x hx => ?_⟩
    by_cases hal' : a ∈ al
    · have hp : (a, x) ∈ aux := (hA.names.aux_iff a x).2 ⟨hal', (h.inS a ha x).2 hx⟩
      obtain ⟨j1, j2⟩ := i2 _ hp
      have hk : nls.length + aux.idxOf (a, x) ∈ Dict.keys A.graph.nodes := (hA.coded.node _).2 (Or.inr ⟨_, hp, rfl⟩)
      have h1 := hφf _ hp
      rw [p2 _ hk, j2] at h1
      have h2 : (a, f a x) ∈ aux :=
        (hA.names.aux_iff a _).2 ⟨hal', (h.inS a ha _).2 ((hf.bij a ha hal').mapsTo hx)⟩
      have h3 : (a, List.foldr (fun m y => Spec.permOf m a y) x ms') = (a, f a x) :=
        (List.idxOf_inj j1).1 (by simpa using h1)
      exact (congrArg Prod.snd h3).symm
    · rw [hf.fixed a ha hal' x]
      clear i2
      induction ms' with
      | nil => rfl
      | cons m t ih =>
        rw [List.foldr_cons, ← ih fun m hm => i1 m (by simp [hm])]
        obtain ⟨P, hP, hm'⟩ := l2 m (i1 m (by simp))
        obtain ⟨m'', m1, m2, -⟩ := step P hP
        rw [hm'] at m1; cases m1
        exact (m2.2.1.fixed a ha hal' x).symm

end two

end Pymnet
