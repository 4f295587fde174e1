import Verif.Props.DistNames
import Verif.Props.Transforms3

/-! C169: a part of a network has no shorter paths. -/

set_option linter.unusedSectionVars false

namespace Pymnet

open Py

variable {α W : Type} [DecidableEq α] [DecidableEq W]
variable {m m' : MNet α W} {d : Nat} {z : W} {dir al al' : Bool} {S S' : Nat → α → Prop} {NL NL' : List α → Prop} {R R' : List α → List α → W}
  [CommRing W] [LinearOrder W] [IsStrictOrderedRing W]
  {pop pop' : List (QEntry α W) → QEntry α W × List (QEntry α W)} {src : List (List α)}

/-- Internal: walks of the part are walks of the network. -/
theorem walk_part (hNL : ∀ x, NL' x → NL x) (hR : ∀ a b, NL' a → NL' b → R' a b ≠ z → R' a b = R a b) {a b : List α} {ℓ : W}
    (h : Spec.Walk (Spec.LinkStep NL' z R') R' a b ℓ) : Spec.Walk (Spec.LinkStep NL z R) R a b ℓ := by
  induction h with
  | nil => exact .nil _
  | snoc _ hs ih =>
    obtain ⟨h1, h2, h3⟩ := hs
    have e := hR _ _ h1 h2 h3
    rw [e] at h3 ⊢
    exact .snoc ih ⟨hNL _ h1, hNL _ h2, h3⟩

/-- Internal: C169 for any part. -/
theorem part_distances (h : Spec.Looks m d z dir al S NL R) (h' : Spec.Looks m' d z dir al' S' NL' R')
    (hNL : ∀ x, NL' x → NL x) (hR : ∀ a b, NL' a → NL' b → R' a b ≠ z → R' a b = R a b)
    (hw : ∀ a b, NL a → NL b → R a b ≠ z → 0 ≤ R a b) (hsrc : ∀ x ∈ src, NL' x) (hpop : Spec.PopsLeast pop) (hpop' : Spec.PopsLeast pop') :
    ((∃ fuel r, m.view.dijkstra pop src fuel = some r) → ∃ fuel r, m'.view.dijkstra pop' src fuel = some r) ∧
    ∀ fuel fuel' r r', m.view.dijkstra pop src fuel = some r → m'.view.dijkstra pop' src fuel' = some r' →
      ∃ D F D' F', r = .ok (D, F) ∧ r' = .ok (D', F') ∧ ∀ x t', Dict.get D' x = some t' → ∃ t, Dict.get D x = some t ∧ t ≤ t' := by
  have hw' : ∀ a b, NL' a → NL' b → R' a b ≠ z → 0 ≤ R' a b := by
    intro a b ha hb hne
    have e := hR a b ha hb hne
    rw [e] at hne ⊢
    exact hw a b (hNL a ha) (hNL b hb) hne
  have hs : ∀ x ∈ src, NL x := fun x hx => hNL x (hsrc x hx)
  have hre : ∀ x ℓ, Spec.Reaches (Spec.LinkStep NL' z R') R' src x ℓ → Spec.Reaches (Spec.LinkStep NL z R) R src x ℓ := by
    rintro x ℓ ⟨s, hs, hw⟩
    exact ⟨s, hs, walk_part hNL hR hw⟩
  refine ⟨?_, fun fuel fuel' r r' hr hr' => ?_⟩
  · rw [C38_terminates_partial h hw hs hpop, C38_terminates_partial h' hw' hsrc hpop']
    rintro H x ℓ hx ⟨y, ℓ', ⟨h1, h2, h3⟩, hwk, h0⟩
    have e := hR x y h1 h2 h3
    rw [e] at h3 h0
    exact H x ℓ (hre x ℓ hx) ⟨y, ℓ', ⟨hNL x h1, hNL y h2, h3⟩, walk_part hNL hR hwk, h0⟩
  · obtain ⟨D, F, rfl, d1, d2, -⟩ := C37_distances h hw hs hpop fuel r hr
    obtain ⟨D', F', rfl, d1', d2', -⟩ := C37_distances h' hw' hsrc hpop' fuel' r' hr'
    refine ⟨D, F, D', F', rfl, rfl, fun x t' ht' => ?_⟩
    have k := hre x t' ((d1' x t').1 ht').1
    obtain ⟨t, ht⟩ := d2 x t' k
    exact ⟨t, ht, ((d1 x t).1 ht).2 t' k⟩

/-- **C169, selections.** For every general network without negative weights and all selected sources: if `dijkstra` returns in the network it
returns in the selection, where every node-layer that gets a distance has one in the network that is not larger. -/
theorem C169_subnet (h : Spec.Looks m d z dir al S NL R) (hw : ∀ a b, NL a → NL b → R a b ≠ z → 0 ≤ R a b)
    {sel : List (Option (List α))} (hsel : sel.length = d + 1) (nolinks : Bool) (hsrc : ∀ x ∈ src, NL x ∧ Spec.Selected sel x)
    (hpop : Spec.PopsLeast pop) (hpop' : Spec.PopsLeast pop') :
    ∃ m', m.subnet sel nolinks = .ok m' ∧
      ((∃ fuel r, m.view.dijkstra pop src fuel = some r) → ∃ fuel r, m'.view.dijkstra pop' src fuel = some r) ∧
      ∀ fuel fuel' r r', m.view.dijkstra pop src fuel = some r → m'.view.dijkstra pop' src fuel' = some r' →
        ∃ D F D' F', r = .ok (D, F) ∧ r' = .ok (D', F') ∧ ∀ x t', Dict.get D' x = some t' → ∃ t, Dict.get D x = some t ∧ t ≤ t' := by
  classical
  obtain ⟨m', e, l⟩ := C28_subnet_partial h hsel nolinks
  refine ⟨m', e, part_distances h l (fun x hx => hx.1) (fun a b _ _ hne => ?_) hw hsrc hpop hpop'⟩
  by_cases q : nolinks = false ∧ Spec.Selected sel a ∧ Spec.Selected sel b
  · rw [if_pos q]
  · rw [if_neg q] at hne
    exact absurd rfl hne

/-- **C169, thresholds**, for node-aligned general networks (for others `threshold` raises an exception, C32_false). -/
theorem C169_threshold (h : Spec.Looks m d z dir true S NL R) (hw : ∀ a b, NL a → NL b → R a b ≠ z → 0 ≤ R a b)
    (t0 : W) {method : Method} (hm : method ≠ .invalid) (hsrc : ∀ x ∈ src, NL x) (hpop : Spec.PopsLeast pop) (hpop' : Spec.PopsLeast pop') :
    ∃ m', m.view.threshold t0 method = .ok m' ∧
      ((∃ fuel r, m.view.dijkstra pop src fuel = some r) → ∃ fuel r, m'.view.dijkstra pop' src fuel = some r) ∧
      ∀ fuel fuel' r r', m.view.dijkstra pop src fuel = some r → m'.view.dijkstra pop' src fuel' = some r' →
        ∃ D F D' F', r = .ok (D, F) ∧ r' = .ok (D', F') ∧ ∀ x t', Dict.get D' x = some t' → ∃ t, Dict.get D x = some t ∧ t ≤ t' := by
  classical
  obtain ⟨m', e, l⟩ := C32_threshold_partial h t0 hm
  refine ⟨m', e, part_distances h l (fun x hx => hx) (fun a b _ _ hne => ?_) hw hsrc hpop hpop'⟩
  by_cases q : Spec.Keeps t0 (R a b) method
  · rw [if_pos q]
  · rw [if_neg q] at hne
    exact absurd rfl hne

/-- Internal: the weights of the example. -/
theorem transOps_nonneg (a b : List Nat) (ha : Spec.HasNodeLayerG 1 true transOps a) (hb : Spec.HasNodeLayerG 1 true transOps b) :
    0 ≤ Spec.read 1 false 0 transOps a b := by
  have l := network_looks 1 (0 : Int) false true transOps
  rw [← l.reads_eq (l.nl_length ha) (l.nl_length hb)]
  have : ∀ a ∈ (after 1 0 false true transOps).nodeLayers, ∀ b ∈ (after 1 0 false true transOps).nodeLayers,
      0 ≤ (after 1 0 false true transOps).reads a b := by decide +kernel
  exact this a ((l.nodeLayers.2 a).2 ha) b ((l.nodeLayers.2 b).2 hb)

/-- without the links of weight less than 4, node 3 on layer 11 is as near as before, and node 1 on layer 11 is not reached any more -/
example : ∃ m' D F D' F', (after 1 0 false true transOps).view.threshold 4 .ge = .ok m' ∧
    (after 1 0 false true transOps).view.dijkstra popMin [[1, 10]] 40 = some (.ok (D, F)) ∧ m'.view.dijkstra popMin [[1, 10]] 40 = some (.ok (D', F')) ∧
    (∀ x t', Dict.get D' x = some t' → ∃ t, Dict.get D x = some t ∧ t ≤ t') ∧
    Dict.get D [3, 11] = some 4 ∧ Dict.get D' [3, 11] = some 4 ∧ Dict.get D [1, 11] = some 2 ∧ Dict.get D' [1, 11] = none := by
  have l := network_looks 1 (0 : Int) false true transOps
  obtain ⟨m', e, -, k⟩ := C169_threshold (src := [[1, 10]]) l (fun a b ha hb _ => transOps_nonneg a b ha hb) 4 (method := .ge) (by decide)
    (fun x hx => by rw [List.mem_singleton.1 hx]; exact (l.nodeLayers.2 _).1 (by decide)) popMin_least popMin_least
  have b : ((after 1 0 false true transOps).view.dijkstra popMin [[1, 10]] 40).map (fun r => r.toOption.map fun p =>
      (Dict.get p.1 [3, 11], Dict.get p.1 [1, 11])) = some (some (some 4, some 2)) := by decide +kernel
  have b' : ((after 1 0 false true transOps).view.threshold 4 .ge).toOption.map (fun m' => (m'.view.dijkstra popMin [[1, 10]] 40).map (fun r =>
      r.toOption.map fun p => (Dict.get p.1 [3, 11], Dict.get p.1 [1, 11]))) = some (some (some (some 4, none))) := by decide +kernel
  rw [e] at b'
  simp only [Except.toOption, Option.map_some, Option.some.injEq] at b'
  obtain ⟨r, hr⟩ : ∃ r, (after 1 0 false true transOps).view.dijkstra popMin [[1, 10]] 40 = some r :=
    Option.isSome_iff_exists.1 (by decide +kernel)
  obtain ⟨r', hr'⟩ : ∃ r, m'.view.dijkstra popMin [[1, 10]] 40 = some r := by
    rcases q : m'.view.dijkstra popMin [[1, 10]] 40 with _ | r
    · rw [q] at b'; cases b'
    · exact ⟨r, rfl⟩
  obtain ⟨D, F, D', F', rfl, rfl, a⟩ := k 40 40 r r' hr hr'
  rw [hr] at b
  rw [hr'] at b'
  simp [Except.toOption] at b b'
  exact ⟨m', D, F, D', F', e, hr, hr', a, b.1, b'.1, b.2, b'.2⟩

/-- on the layers 10 and 12 -/
example : ∃ m', (after 1 0 false true transOps).subnet [none, some [10, 12]] false = .ok m' ∧
    ((∃ fuel r, (after 1 0 false true transOps).view.dijkstra popMin [[1, 10]] fuel = some r) → ∃ fuel r, m'.view.dijkstra popMin [[1, 10]] fuel = some r) := by
  have l := network_looks 1 (0 : Int) false true transOps
  obtain ⟨m', e, k, -⟩ := C169_subnet (src := [[1, 10]]) (sel := [none, some [10, 12]]) l (fun a b ha hb _ => transOps_nonneg a b ha hb) rfl false
    (fun x hx => by
      rw [List.mem_singleton.1 hx]
      refine ⟨(l.nodeLayers.2 _).1 (by decide), ?_⟩
      unfold Spec.Selected
      rintro (_ | _ | k) <;> simp) popMin_least popMin_least
  exact ⟨m', e, k⟩

end Pymnet
