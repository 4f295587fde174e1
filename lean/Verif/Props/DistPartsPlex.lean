import Verif.Props.DistParts
import Verif.Props.DistPlex

/-! C169 for thresholds of multiplex networks. -/

set_option linter.unusedSectionVars false

namespace Pymnet

open Py MPlex

variable {α W : Type} [DecidableEq α] [DecidableEq W] [LawfulIntNames α] [CommRing W] [LinearOrder W] [IsStrictOrderedRing W]
  {cs : List (Coupling α W)} {ops : List (POp α W)}
  {pop pop' : List (QEntry α W) → QEntry α W × List (QEntry α W)} {src : List (List α)}

/-- **C169, thresholds of node-aligned multiplex networks.** -/
theorem C169_multiplex_threshold (dir : Bool) (hU : Spec.Usable cs true ops) (hs : Spec.NoIntraSelf ops)
    (hw : ∀ a b, Spec.HasNodeLayer cs.length true ops a → Spec.HasNodeLayer cs.length true ops b →
      Spec.weight cs dir true ops a b ≠ 0 → 0 ≤ Spec.weight cs dir true ops a b)
    (t0 : W) {method : Method} (hm : method ≠ .invalid)
    (hsrc : ∀ x ∈ src, Spec.HasNodeLayer cs.length true ops x) (hpop : Spec.PopsLeast pop) (hpop' : Spec.PopsLeast pop') :
    ∃ m', (afterP cs dir 0 true ops).view.threshold t0 method = .ok m' ∧
      ((∃ fuel r, (afterP cs dir 0 true ops).view.dijkstra pop src fuel = some r) → ∃ fuel r, m'.view.dijkstra pop' src fuel = some r) ∧
      ∀ fuel fuel' r r', (afterP cs dir 0 true ops).view.dijkstra pop src fuel = some r → m'.view.dijkstra pop' src fuel' = some r' →
        ∃ D F D' F', r = .ok (D, F) ∧ r' = .ok (D', F') ∧ ∀ x t', Dict.get D' x = some t' → ∃ t, Dict.get D x = some t ∧ t ≤ t' := by
  classical
  obtain ⟨m', R', e, l, k⟩ := C32_threshold_multiplex_partial dir hU hs t0 hm
  have hR : ∀ a b, Spec.HasNodeLayer cs.length true ops a → Spec.HasNodeLayer cs.length true ops b → R' a b ≠ 0 →
      R' a b = Spec.weight cs dir true ops a b := by
    intro a b ha hb hne
    rw [k a b ha hb] at hne ⊢
    by_cases q : Spec.Keeps t0 (Spec.weight cs dir true ops a b) method
    · rw [if_pos q]
    · rw [if_neg q] at hne
      exact absurd rfl hne
  have hw' : ∀ a b, Spec.HasNodeLayer cs.length true ops a → Spec.HasNodeLayer cs.length true ops b → R' a b ≠ 0 → 0 ≤ R' a b := by
    intro a b ha hb hne
    have e := hR a b ha hb hne
    rw [e] at hne ⊢
    exact hw a b ha hb hne
  have hre : ∀ x ℓ, Spec.Reaches (Spec.LinkStep (Spec.HasNodeLayer cs.length true ops) 0 R') R' src x ℓ →
      Spec.Reaches (Spec.LinkStep (Spec.HasNodeLayer cs.length true ops) 0 (Spec.weight cs dir true ops)) (Spec.weight cs dir true ops) src x ℓ := by
    rintro x ℓ ⟨s, hs, hw⟩
    exact ⟨s, hs, walk_part (fun _ h => h) hR hw⟩
  obtain ⟨A, B⟩ := C37_multiplex dir hU hs (Or.inl rfl) hw hsrc hpop
  refine ⟨m', e, ?_, fun fuel fuel' r r' hr hr' => ?_⟩
  · rw [B, C38_terminates_partial l hw' hsrc hpop']
    rintro H x ℓ hx ⟨y, ℓ', ⟨h1, h2, h3⟩, hwk, h0⟩
    have e := hR x y h1 h2 h3
    rw [e] at h3 h0
    exact H x ℓ (hre x ℓ hx) ⟨y, ℓ', ⟨h1, h2, h3⟩, walk_part (fun _ h => h) hR hwk, h0⟩
  · obtain ⟨D, F, rfl, d1, d2, -⟩ := A fuel r hr
    obtain ⟨D', F', rfl, d1', d2', -⟩ := C37_distances l hw' hsrc hpop' fuel' r' hr'
    refine ⟨D, F, D', F', rfl, rfl, fun x t' ht' => ?_⟩
    have k := hre x t' ((d1' x t').1 ht').1
    obtain ⟨t, ht⟩ := d2 x t' k
    exact ⟨t, ht, ((d1 x t).1 ht).2 t' k⟩

/-- **C169, selections of multiplex networks**, if the layers that are listed exist. -/
theorem C169_multiplex_subnet {al : Bool} (dir : Bool) (hU : Spec.Usable cs al ops) (hs : Spec.NoIntraSelf ops)
    (hal : al = true ∨ ∃ w, cs = [.categorical w])
    (hw : ∀ a b, Spec.HasNodeLayer cs.length al ops a → Spec.HasNodeLayer cs.length al ops b →
      Spec.weight cs dir al ops a b ≠ 0 → 0 ≤ Spec.weight cs dir al ops a b)
    {sel : List (Option (List α))} (hsel : sel.length = cs.length + 1)
    (hex : ∀ s, Spec.Asked cs.length al ops sel s → Spec.HasLayer cs.length al ops (.ofList s))
    (hsrc : ∀ x ∈ src, Spec.HasNodeLayer cs.length al ops x ∧ Spec.ChosenNL sel x) (hpop : Spec.PopsLeast pop) (hpop' : Spec.PopsLeast pop') :
    ∃ p', (afterP cs dir 0 al ops).subnet sel false = .ok p' ∧
      ((∃ fuel r, (afterP cs dir 0 al ops).view.dijkstra pop src fuel = some r) → ∃ fuel r, p'.view.dijkstra pop' src fuel = some r) ∧
      ∀ fuel fuel' r r', (afterP cs dir 0 al ops).view.dijkstra pop src fuel = some r → p'.view.dijkstra pop' src fuel' = some r' →
        ∃ D F D' F', r = .ok (D, F) ∧ r' = .ok (D', F') ∧ ∀ x t', Dict.get D' x = some t' → ∃ t, Dict.get D x = some t ∧ t ≤ t' := by
  classical
  have hcs := hU.some_aspect
  have hnet : ∀ c, .net c ∉ cs := by
    intro c hc
    obtain ⟨w, -, h | h⟩ := hU.kind _ hc <;> cases h
  obtain ⟨ops', e, l⟩ := C84_subnet (dir := dir) (z := 0) (ops := ops) (al := al) hcs hnet hsel false (Or.inr hex)
  have hU1 : Spec.Usable cs al ops' := ⟨hcs, hU.kind, fun d w x hd hx => hU.ints d w x hd ((l.layers (d + 1) x (by omega) (by
    have := (List.getElem?_eq_some_iff.1 hd).1; omega)).1 hx).1⟩
  have hNL : ∀ x, Spec.HasNodeLayer cs.length al ops' x → Spec.HasNodeLayer cs.length al ops x := fun x hx => ((l.nodeLayers x).1 hx).1
  have hWt : ∀ u v, Spec.HasNodeLayer cs.length al ops' u → Spec.HasNodeLayer cs.length al ops' v →
      Spec.weight cs dir al ops' u v = Spec.weight cs dir al ops u v := by
    intro u v hu hv
    have hcu := ((l.nodeLayers u).1 hu).2
    have hcv := ((l.nodeLayers v).1 hv).2
    have hlen : u.length = cs.length + 1 := by
      obtain ⟨n, s, rfl, h, -⟩ := hasNodeLayer_names hu; simp [h]
    refine weight_congr fun w => ?_
    unfold Spec.LinkWeight
    refine or_congr_left (exists_congr fun i => exists_congr fun j => exists_congr fun s => and_congr_right fun hus =>
      and_congr_right fun hvs => ?_)
    subst hus hvs
    rw [l.link s i j (by simpa using hlen), if_pos ⟨rfl, fun k x h => hcu (k + 1) x (by simpa using h), hcu 0 i rfl, hcv 0 j rfl⟩]
  have hw' : ∀ a b, Spec.HasNodeLayer cs.length al ops' a → Spec.HasNodeLayer cs.length al ops' b →
      Spec.weight cs dir al ops' a b ≠ 0 → 0 ≤ Spec.weight cs dir al ops' a b := by
    intro a b ha hb hne
    rw [hWt a b ha hb] at hne ⊢
    exact hw a b (hNL a ha) (hNL b hb) hne
  have hsrc' : ∀ x ∈ src, Spec.HasNodeLayer cs.length al ops' x := fun x hx => (l.nodeLayers x).2 (hsrc x hx)
  have wp : ∀ {a b ℓ}, Spec.Walk (Spec.LinkStep (Spec.HasNodeLayer cs.length al ops') 0 (Spec.weight cs dir al ops')) (Spec.weight cs dir al ops') a b ℓ →
      Spec.Walk (Spec.LinkStep (Spec.HasNodeLayer cs.length al ops) 0 (Spec.weight cs dir al ops)) (Spec.weight cs dir al ops) a b ℓ :=
    fun h => walk_part hNL (fun a b ha hb _ => hWt a b ha hb) h
  obtain ⟨A, B⟩ := C37_multiplex dir hU hs hal hw (fun x hx => (hsrc x hx).1) hpop
  obtain ⟨A', B'⟩ := C37_multiplex dir hU1 (l.noself hs) hal hw' hsrc' hpop'
  refine ⟨_, e, ?_, fun fuel fuel' r r' hr hr' => ?_⟩
  · rw [B, B']
    rintro H x ℓ ⟨s, hs, hx⟩ ⟨y, ℓ', ⟨h1, h2, h3⟩, hwk, h0⟩
    rw [hWt x y h1 h2] at h3 h0
    exact H x ℓ ⟨s, hs, wp hx⟩ ⟨y, ℓ', ⟨hNL x h1, hNL y h2, h3⟩, wp hwk, h0⟩
  · obtain ⟨D, F, rfl, d1, d2, -⟩ := A fuel r hr
    obtain ⟨D', F', rfl, d1', d2', -⟩ := A' fuel' r' hr'
    refine ⟨D, F, D', F', rfl, rfl, fun x t' ht' => ?_⟩
    obtain ⟨s, hs, hx⟩ := ((d1' x t').1 ht').1
    obtain ⟨t, ht⟩ := d2 x t' ⟨s, hs, wp hx⟩
    exact ⟨t, ht, ((d1 x t).1 ht).2 t' ⟨s, hs, wp hx⟩⟩

/-- the nodes 1 and 2 -/
example : ∃ p', (afterP [.categorical (1 : Int)] false 0 true isoOpsA).subnet [some [1, 2], none] false = .ok p' ∧
    ((∃ fuel r, (afterP [.categorical (1 : Int)] false 0 true isoOpsA).view.dijkstra popMinI [[1, 10]] fuel = some r) →
      ∃ fuel r, p'.view.dijkstra popMinI [[1, 10]] fuel = some r) := by
  have hU : Spec.Usable [.categorical (1 : Int)] true isoOpsA := ⟨by simp, by simp, by rintro (_ | d) w x h <;> simp at h⟩
  obtain ⟨l, l1, -, l3⟩ := after_nodeLayers hU.some_aspect false 0 true isoOpsA
  have l2 : (afterP [.categorical (1 : Int)] false 0 true isoOpsA).nodeLayers =
      .ok [[1, 10], [1, 20], [2, 10], [2, 20], [3, 10], [3, 20]] := by decide +kernel
  cases l1.symm.trans l2
  have pos : ∀ a ∈ [[1, 10], [1, 20], [2, 10], [2, 20], [3, 10], [3, (20 : Int)]], ∀ b ∈ [[1, 10], [1, 20], [2, 10], [2, 20], [3, 10], [3, (20 : Int)]],
      0 ≤ (afterP [.categorical (1 : Int)] false 0 true isoOpsA).R a b := by decide +kernel
  obtain ⟨p', e, k, -⟩ := C169_multiplex_subnet (src := [[1, 10]]) (sel := [some [1, 2], none]) false hU
    (by intro L i w h; simp [isoOpsA] at h) (Or.inl rfl)
    (fun u v hu hv _ => by
      rw [← main_R hU hu hv]
      exact pos u ((l3 u).2 hu) v ((l3 v).2 hv)) rfl
    (fun s h => asked_hasLayer (P := fun _ _ => True) (by
      rintro (_ | _ | a) l x ha hl hx
      · omega
      · simp at hl
      · simp at hl) h)
    (fun x hx => by
      rw [List.mem_singleton.1 hx]
      refine ⟨(l3 _).1 (by decide), ?_⟩
      unfold Spec.ChosenNL Spec.Chosen
      rintro (_ | _ | k) <;> simp) popMinI_least popMinI_least
  exact ⟨p', e, k⟩

/-- without the couplings, which have the weight 1 -/
example : ∃ m' D F D' F', (afterP [.categorical (1 : Int)] false 0 true isoOpsA).view.threshold 2 .ge = .ok m' ∧
    (afterP [.categorical (1 : Int)] false 0 true isoOpsA).view.dijkstra popMinI [[1, 10]] 40 = some (.ok (D, F)) ∧
    m'.view.dijkstra popMinI [[1, 10]] 40 = some (.ok (D', F')) ∧
    (∀ x t', Dict.get D' x = some t' → ∃ t, Dict.get D x = some t ∧ t ≤ t') ∧
    Dict.get D [3, 20] = some 11 ∧ Dict.get D' [3, 20] = none ∧ Dict.get D' [2, 10] = some 5 := by
  have hU : Spec.Usable [.categorical (1 : Int)] true isoOpsA := ⟨by simp, by simp, by rintro (_ | d) w x h <;> simp at h⟩
  obtain ⟨l, l1, -, l3⟩ := after_nodeLayers hU.some_aspect false 0 true isoOpsA
  have l2 : (afterP [.categorical (1 : Int)] false 0 true isoOpsA).nodeLayers =
      .ok [[1, 10], [1, 20], [2, 10], [2, 20], [3, 10], [3, 20]] := by decide +kernel
  cases l1.symm.trans l2
  have pos : ∀ a ∈ [[1, 10], [1, 20], [2, 10], [2, 20], [3, 10], [3, (20 : Int)]], ∀ b ∈ [[1, 10], [1, 20], [2, 10], [2, 20], [3, 10], [3, (20 : Int)]],
      0 ≤ (afterP [.categorical (1 : Int)] false 0 true isoOpsA).R a b := by decide +kernel
  obtain ⟨m', e, -, k⟩ := C169_multiplex_threshold (src := [[1, 10]]) false hU (by intro L i w h; simp [isoOpsA] at h)
    (fun u v hu hv _ => by
      rw [← main_R hU hu hv]
      exact pos u ((l3 u).2 hu) v ((l3 v).2 hv)) 2 (method := .ge) (by decide)
    (fun x hx => by rw [List.mem_singleton.1 hx]; exact (l3 _).1 (by decide)) popMinI_least popMinI_least
  have b : ((afterP [.categorical (1 : Int)] false 0 true isoOpsA).view.dijkstra popMinI [[1, 10]] 40).map
      (fun r => r.toOption.map fun p => Dict.get p.1 [3, 20]) = some (some (some 11)) := by decide +kernel
  have b' : ((afterP [.categorical (1 : Int)] false 0 true isoOpsA).view.threshold 2 .ge).toOption.map (fun m' =>
      (m'.view.dijkstra popMinI [[1, 10]] 40).map (fun r => r.toOption.map fun p => (Dict.get p.1 [3, 20], Dict.get p.1 [2, 10]))) =
      some (some (some (none, some 5))) := by decide +kernel
  rw [e] at b'
  simp only [Except.toOption, Option.map_some, Option.some.injEq] at b'
  obtain ⟨r, hr⟩ : ∃ r, (afterP [.categorical (1 : Int)] false 0 true isoOpsA).view.dijkstra popMinI [[1, 10]] 40 = some r :=
    Option.isSome_iff_exists.1 (by decide +kernel)
  obtain ⟨r', hr'⟩ : ∃ r, m'.view.dijkstra popMinI [[1, 10]] 40 = some r := by
    rcases q : m'.view.dijkstra popMinI [[1, 10]] 40 with _ | r
    · rw [q] at b'; cases b'
    · exact ⟨r, rfl⟩
  obtain ⟨D, F, D', F', rfl, rfl, a⟩ := k 40 40 r r' hr hr'
  rw [hr] at b
  rw [hr'] at b'
  simp [Except.toOption] at b b'
  exact ⟨m', D, F, D', F', e, hr, hr', a, b, b'.1, b'.2⟩

end Pymnet
