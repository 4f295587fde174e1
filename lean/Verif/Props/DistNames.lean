import Verif.Props.Laws
import Verif.Props.Diagnostics

/-! C168: distances do not depend on names. -/

set_option linter.unusedSectionVars false

namespace Pymnet

open Py

variable {α W : Type} [DecidableEq α] [DecidableEq W]

section walks

variable [Zero W] [Add W] [LE W] {V : Type} {P P' : V → Prop} {z : W} {R R' : V → V → W} {g : V → V}

/-- Internal: a link. -/
def LkStep (P : V → Prop) (z : W) (R : V → V → W) (a b : V) : Prop := P a ∧ P b ∧ R a b ≠ z

/-- Internal: walks are renamed. -/
theorem walk_fwd (hP : ∀ y, P' y ↔ ∃ x, P x ∧ y = g x) (hR : ∀ a b, P a → P b → R' (g a) (g b) = R a b) {a b : V} {ℓ : W}
    (h : Spec.Walk (LkStep P z R) R a b ℓ) : Spec.Walk (LkStep P' z R') R' (g a) (g b) ℓ := by
  induction h with
  | nil => exact .nil _
  | snoc _ hs ih =>
    obtain ⟨h1, h2, h3⟩ := hs
    rw [← hR _ _ h1 h2] at h3 ⊢
    exact .snoc ih ⟨(hP _).2 ⟨_, h1, rfl⟩, (hP _).2 ⟨_, h2, rfl⟩, h3⟩

/-- Internal: and back. -/
theorem walk_bwd (hP : ∀ y, P' y ↔ ∃ x, P x ∧ y = g x) (hR : ∀ a b, P a → P b → R' (g a) (g b) = R a b)
    (hi : ∀ a b, P a → P b → g a = g b → a = b) {a' b' : V} {ℓ : W}
    (h : Spec.Walk (LkStep P' z R') R' a' b' ℓ) : ∀ a, P a → a' = g a → ∃ b, P b ∧ b' = g b ∧ Spec.Walk (LkStep P z R) R a b ℓ := by
  induction h with
  | nil => exact fun a ha e => ⟨a, ha, e, .nil _⟩
  | snoc _ hs ih =>
    intro a ha e
    obtain ⟨b, hb, rfl, hw⟩ := ih a ha e
    obtain ⟨h1, h2, h3⟩ := hs
    obtain ⟨c, hc, rfl⟩ := (hP _).1 h2
    rw [hR _ _ hb hc] at h3 ⊢
    exact ⟨c, hc, rfl, .snoc hw ⟨hb, hc, h3⟩⟩

/-- Internal: reaching. -/
theorem reaches_renamed (hP : ∀ y, P' y ↔ ∃ x, P x ∧ y = g x) (hR : ∀ a b, P a → P b → R' (g a) (g b) = R a b)
    (hi : ∀ a b, P a → P b → g a = g b → a = b) {src : List V} (hsrc : ∀ x ∈ src, P x) {x : V} (hx : P x) (ℓ : W) :
    Spec.Reaches (LkStep P' z R') R' (src.map g) (g x) ℓ ↔ Spec.Reaches (LkStep P z R) R src x ℓ := by
  constructor
  · rintro ⟨s', hs', hw⟩
    obtain ⟨s, hs, rfl⟩ := List.mem_map.1 hs'
    obtain ⟨b, hb, e, hw⟩ := walk_bwd hP hR hi hw s (hsrc s hs) rfl
    rw [hi _ _ hx hb e]
    exact ⟨s, hs, hw⟩
  · rintro ⟨s, hs, hw⟩
    exact ⟨g s, List.mem_map.2 ⟨s, hs, rfl⟩, walk_fwd hP hR hw⟩

theorem reaches_from (hP : ∀ y, P' y ↔ ∃ x, P x ∧ y = g x) (hR : ∀ a b, P a → P b → R' (g a) (g b) = R a b)
    (hi : ∀ a b, P a → P b → g a = g b → a = b) {src : List V} (hsrc : ∀ x ∈ src, P x) {y : V} {ℓ : W}
    (h : Spec.Reaches (LkStep P' z R') R' (src.map g) y ℓ) : ∃ x, P x ∧ y = g x := by
  obtain ⟨s', hs', hw⟩ := h
  obtain ⟨s, hs, rfl⟩ := List.mem_map.1 hs'
  obtain ⟨b, hb, e, -⟩ := walk_bwd hP hR hi hw s (hsrc s hs) rfl
  exact ⟨b, hb, e⟩

theorem zeroCycle_renamed (hP : ∀ y, P' y ↔ ∃ x, P x ∧ y = g x) (hR : ∀ a b, P a → P b → R' (g a) (g b) = R a b)
    (hi : ∀ a b, P a → P b → g a = g b → a = b) {x : V} (hx : P x) :
    Spec.OnZeroCycle (LkStep P' z R') R' (g x) ↔ Spec.OnZeroCycle (LkStep P z R) R x := by
  constructor
  · rintro ⟨y', ℓ, ⟨-, h2, h3⟩, hw, h0⟩
    obtain ⟨y, hy, rfl⟩ := (hP _).1 h2
    obtain ⟨b, hb, e, hw⟩ := walk_bwd hP hR hi hw y hy rfl
    obtain rfl := hi _ _ hx hb e
    rw [hR _ _ hx hy] at h3 h0
    exact ⟨y, ℓ, ⟨hx, hy, h3⟩, hw, h0⟩
  · rintro ⟨y, ℓ, ⟨-, h2, h3⟩, hw, h0⟩
    refine ⟨g y, ℓ, ⟨(hP _).2 ⟨x, hx, rfl⟩, (hP _).2 ⟨y, h2, rfl⟩, ?_⟩, walk_fwd hP hR hw, ?_⟩ <;> rw [hR _ _ hx h2]
    · exact h3
    · exact h0

end walks

variable {m : MNet α W} {d : Nat} {z : W} {dir al : Bool} {S : Nat → α → Prop} {NL : List α → Prop} {R : List α → List α → W}
  [CommRing W] [LinearOrder W] [IsStrictOrderedRing W]
  {pop pop' : List (QEntry α W) → QEntry α W × List (QEntry α W)} {src : List (List α)}

/-- **C168.** For every general network, directed or not, without negative weights, and every renaming that keeps different names different:
`dijkstra` in the renamed network from the renamed sources returns if and only if it does in the network, and then maps the renamed
node-layers, and nothing else, to the distances in the network, whatever the order in which heaps yield entries of equal distance. -/
theorem C168_distances (h : Spec.Looks m d z dir al S NL R) (hw : ∀ a b, NL a → NL b → R a b ≠ z → 0 ≤ R a b)
    (hsrc : ∀ x ∈ src, NL x) (hpop : Spec.PopsLeast pop) (hpop' : Spec.PopsLeast pop') (nodes : Dict α α) (layers : List (Dict α α))
    (hinj : ∀ k ≤ d, ∀ x y, S k x → S k y → Spec.newName nodes layers k x = Spec.newName nodes layers k y → x = y) :
    ∃ m', m.relabel nodes layers = .ok m' ∧
      ((∃ fuel r, m.view.dijkstra pop src fuel = some r) ↔
        ∃ fuel r, m'.view.dijkstra pop' (src.map (Spec.renamed (Spec.newName nodes layers))) fuel = some r) ∧
      ∀ fuel fuel' r r', m.view.dijkstra pop src fuel = some r →
        m'.view.dijkstra pop' (src.map (Spec.renamed (Spec.newName nodes layers))) fuel' = some r' →
        ∃ D F D' F', r = .ok (D, F) ∧ r' = .ok (D', F') ∧
          (∀ x, NL x → Dict.get D' (Spec.renamed (Spec.newName nodes layers) x) = Dict.get D x) ∧
          ∀ y ∈ Dict.keys D', ∃ x, NL x ∧ y = Spec.renamed (Spec.newName nodes layers) x := by
  obtain ⟨m', R', e, l, a, b⟩ := C30_relabel h nodes layers hinj
  set g := Spec.renamed (Spec.newName nodes layers) with hg
  have hi : ∀ u w, NL u → NL w → g u = g w → u = w := by
    intro u w hu hw he
    have h1 := h.nl_length hu
    have h2 := h.nl_length hw
    apply List.ext_getElem (by omega)
    intro k k1 k2
    have h3 := congrArg (fun l => l[k]?) he
    simp only [hg, Spec.renamed, List.getElem?_mapIdx, List.getElem?_eq_getElem k1, List.getElem?_eq_getElem k2,
      Option.map_some, Option.some.injEq] at h3
    exact hinj k (by omega) _ _ ((h.names hu).2 _ _ (List.getElem?_eq_getElem k1)).2 ((h.names hw).2 _ _ (List.getElem?_eq_getElem k2)).2 h3
  have hP : ∀ y, (∃ a, NL a ∧ y = g a) ↔ ∃ x, NL x ∧ y = g x := fun _ => Iff.rfl
  have hw' : ∀ u v, (∃ a, NL a ∧ u = g a) → (∃ a, NL a ∧ v = g a) → R' u v ≠ z → 0 ≤ R' u v := by
    rintro _ _ ⟨u, hu, rfl⟩ ⟨v, hv, rfl⟩ hne
    rw [a u v hu hv] at hne ⊢
    exact hw u v hu hv hne
  have hsrc' : ∀ y ∈ src.map g, ∃ a, NL a ∧ y = g a := by
    intro y hy
    obtain ⟨x, hx, rfl⟩ := List.mem_map.1 hy
    exact ⟨x, hsrc x hx, rfl⟩
  have hre : ∀ {x} (_ : NL x) ℓ, _ := fun {x} hx ℓ => reaches_renamed (z := z) hP a hi hsrc hx ℓ
  refine ⟨m', e, ?_, fun fuel fuel' r r' hr hr' => ?_⟩
  · rw [C38_terminates_partial h hw hsrc hpop, C38_terminates_partial l hw' hsrc' hpop']
    constructor
    · intro H y ℓ hy hz
      obtain ⟨x, hx, rfl⟩ := reaches_from hP a hi hsrc hy
      exact H x ℓ ((hre hx ℓ).1 hy) ((zeroCycle_renamed hP a hi hx).1 hz)
    · intro H x ℓ hxr hz
      have hx : NL x := by obtain ⟨y, -, hs, -⟩ := hz; exact hs.1
      exact H (g x) ℓ ((hre hx ℓ).2 hxr) ((zeroCycle_renamed hP a hi hx).2 hz)
  · obtain ⟨D, F, rfl, d1, d2, -⟩ := C37_distances h hw hsrc hpop fuel r hr
    obtain ⟨D', F', rfl, d1', d2', -⟩ := C37_distances l hw' hsrc' hpop' fuel' r' hr'
    refine ⟨D, F, D', F', rfl, rfl, fun x hx => ?_, fun y hy => ?_⟩
    · apply Option.ext
      intro t
      rw [d1, d1']
      unfold Spec.IsDist
      exact and_congr (hre hx t) (forall_congr' fun ℓ => imp_congr (hre hx ℓ) Iff.rfl)
    · obtain ⟨t, ht⟩ : ∃ t, Dict.get D' y = some t := by
        rcases e : Dict.get D' y with _ | t
        · exact absurd hy (Dict.get_eq_none.1 e)
        · exact ⟨t, rfl⟩
      exact reaches_from hP a hi hsrc ((d1' y t).1 ht).1

/-- the network in which the nodes 1 and 2 and the layers 10 and 11 are exchanged; its distances are found -/
example : ∃ D F D' F', (after 1 0 false true oneOps).view.dijkstra popMin [[1, 10]] 20 = some (.ok (D, F)) ∧
    (after 1 0 false true oneOps').view.dijkstra popMin [[2, 11]] 20 = some (.ok (D', F')) ∧
    Dict.get D' [1, 11] = Dict.get D [2, 10] ∧ Dict.get D [2, 10] = some 1 := by
  have l := network_looks 1 0 false true oneOps
  obtain ⟨m', e, -, k⟩ := C168_distances (src := [[1, 10]]) l
    (fun u v _ _ _ => by
      rcases read_one 1 false u v oneOps (by intro i w hi; simp [oneOps] at hi; omega) with h | h <;> rw [h] <;> decide)
    (fun x hx => by rw [List.mem_singleton.1 hx]; exact (l.nodeLayers.2 _).1 (by decide)) popMin_least popMin_least
    [(1, 2), (2, 1)] [[(10, 11), (11, 10)]]
    (fun k _ x y _ _ h => by
      rcases k with _ | _ | k <;> simp [Spec.newName, Dict.get] at h <;> try exact h
      all_goals split_ifs at h <;> simp only [Option.getD_some, Option.getD_none] at h <;> omega)
  cases (show (after 1 0 false true oneOps).relabel [(1, 2), (2, 1)] [[(10, 11), (11, 10)]] = .ok (after 1 0 false true oneOps')
    from rfl).symm.trans e
  obtain ⟨r, hr⟩ : ∃ r, (after 1 0 false true oneOps).view.dijkstra popMin [[1, 10]] 20 = some r :=
    Option.isSome_iff_exists.1 (by decide)
  obtain ⟨r', hr'⟩ : ∃ r, (after 1 0 false true oneOps').view.dijkstra popMin [[2, 11]] 20 = some r :=
    Option.isSome_iff_exists.1 (by decide)
  obtain ⟨D, F, D', F', rfl, rfl, a, -⟩ := k 20 20 r r' hr hr'
  have b : ((after 1 0 false true oneOps).view.dijkstra popMin [[1, 10]] 20).map
      (fun r => r.toOption.map fun p => Dict.get p.1 [2, 10]) = some (some (some 1)) := by decide
  rw [hr] at b
  refine ⟨D, F, D', F', hr, hr', a [2, 10] ((l.nodeLayers.2 _).1 (by decide)), ?_⟩
  simpa [Except.toOption] using b

end Pymnet
