import Verif.Props.DistNames
import Verif.Props.IsoPlex2
import Verif.Props.ThreshPlex

/-! C168 for multiplex networks. -/

set_option linter.unusedSectionVars false

namespace Pymnet

open Py MPlex

variable {α W : Type} [DecidableEq α] [DecidableEq W] [LawfulIntNames α] [CommRing W] [LinearOrder W] [IsStrictOrderedRing W]
  {cs : List (Coupling α W)} {al : Bool} {ops : List (POp α W)}
  {pop pop' : List (QEntry α W) → QEntry α W × List (QEntry α W)} {src : List (List α)}

/-- **C168, multiplex networks**, if different names stay different and the layers of ordinal aspects keep their names. -/
theorem C168_multiplex (dir : Bool) (hU : Spec.Usable cs al ops) (hs : Spec.NoIntraSelf ops) (hal : al = true ∨ ∃ w, cs = [.categorical w])
    (hw : ∀ a b, Spec.HasNodeLayer cs.length al ops a → Spec.HasNodeLayer cs.length al ops b →
      Spec.weight cs dir al ops a b ≠ 0 → 0 ≤ Spec.weight cs dir al ops a b)
    (hsrc : ∀ x ∈ src, Spec.HasNodeLayer cs.length al ops x) (hpop : Spec.PopsLeast pop) (hpop' : Spec.PopsLeast pop')
    (nodes : Dict α α) (layers : List (Dict α α))
    (hinj : ∀ k ≤ cs.length, ∀ x y, Spec.HasNameP cs.length al ops k x → Spec.HasNameP cs.length al ops k y →
      Spec.newName nodes layers k x = Spec.newName nodes layers k y → x = y)
    (hord : ∀ d w x, cs[d]? = some (.ordinal w) → Spec.newName nodes layers (d + 1) x = x) :
    ∃ p', (afterP cs dir 0 al ops).relabel nodes layers = .ok p' ∧
      ((∃ fuel r, (afterP cs dir 0 al ops).view.dijkstra pop src fuel = some r) ↔
        ∃ fuel r, p'.view.dijkstra pop' (src.map (Spec.renamed (Spec.newName nodes layers))) fuel = some r) ∧
      ∀ fuel fuel' r r', (afterP cs dir 0 al ops).view.dijkstra pop src fuel = some r →
        p'.view.dijkstra pop' (src.map (Spec.renamed (Spec.newName nodes layers))) fuel' = some r' →
        ∃ D F D' F', r = .ok (D, F) ∧ r' = .ok (D', F') ∧
          (∀ x, Spec.HasNodeLayer cs.length al ops x →
            Dict.get D' (Spec.renamed (Spec.newName nodes layers) x) = Dict.get D x) ∧
          ∀ y ∈ Dict.keys D', ∃ x, Spec.HasNodeLayer cs.length al ops x ∧ y = Spec.renamed (Spec.newName nodes layers) x := by
  have hcs := hU.some_aspect
  have hnet : ∀ c, .net c ∉ cs := by
    intro c hc
    obtain ⟨w, -, h | h⟩ := hU.kind _ hc <;> cases h
  have nm0 : ∀ {ops : List (POp α W)} x, Spec.CarriesName cs.length al ops 0 x ↔ Spec.Happened (Spec.NamesNodeP cs.length al x) ops := fun x => by
    unfold Spec.CarriesName; simp
  have nmS : ∀ {ops : List (POp α W)} a, 1 ≤ a → ∀ x, Spec.CarriesName cs.length al ops a x ↔ ∃ op ∈ ops, Spec.NamesLayerP cs.length al a x op := fun a ha x => by
    unfold Spec.CarriesName; rw [if_neg (by omega)]
  simp only [hasNameP_iff] at hinj
  obtain ⟨ops', e1, l⟩ := C85_relabel (cs := cs) (dir := dir) (z := 0) (al := al) hcs hnet hs nodes layers
    (fun x y hx hy => hinj 0 (by omega) x y ((nm0 x).2 hx) ((nm0 y).2 hy))
    (fun a ha hle x y hx hy => hinj a hle x y ((nmS a ha x).2 hx) ((nmS a ha y).2 hy))
  have hU1 : Spec.Usable cs al ops' := ⟨hcs, hU.kind, fun d w x hd hx => by
    obtain ⟨y, hy, rfl⟩ := (l.layers (d + 1) x (by omega) (by have := (List.getElem?_eq_some_iff.1 hd).1; omega)).1 hx
    rw [hord d w y hd]
    exact hU.ints d w y hd hy⟩
  have hR : ∀ u v, Spec.HasNodeLayer cs.length al ops u → Spec.HasNodeLayer cs.length al ops v →
      Spec.weight cs dir al ops' (Spec.renamed (Spec.newName nodes layers) u) (Spec.renamed (Spec.newName nodes layers) v) =
        Spec.weight cs dir al ops u v := fun u v hu hv =>
    (weight_congr (linkWeight_renamed hcs hinj hord l hu hv)).symm
  set g := Spec.renamed (Spec.newName nodes layers) with hg
  have hi : ∀ u w, Spec.HasNodeLayer cs.length al ops u → Spec.HasNodeLayer cs.length al ops w → g u = g w → u = w := by
    intro u w hu hw he
    obtain ⟨i, s, rfl, hs, hi, hsn⟩ := hasNodeLayer_names hu
    obtain ⟨j, t, rfl, ht, hj, htn⟩ := hasNodeLayer_names hw
    have get : ∀ k : Nat, ((i :: s)[k]?).map (Spec.newName nodes layers k) = ((j :: t)[k]?).map (Spec.newName nodes layers k) := by
      intro k
      have h3 := congrArg (fun l => l[k]?) he
      simpa only [hg, Spec.renamed, List.getElem?_mapIdx] using h3
    congr 1
    · exact hinj 0 (by omega) i j ((nm0 i).2 hi) ((nm0 j).2 hj) (by simpa using get 0)
    · apply List.ext_getElem (by omega)
      intro k k1 k2
      have h3 := get (k + 1)
      simp only [List.getElem?_cons_succ, List.getElem?_eq_getElem k1, List.getElem?_eq_getElem k2, Option.map_some, Option.some.injEq] at h3
      exact hinj (k + 1) (by omega) _ _ ((nmS (k + 1) (by omega) _).2 (hsn k _ (List.getElem?_eq_getElem k1)))
        ((nmS (k + 1) (by omega) _).2 (htn k _ (List.getElem?_eq_getElem k2))) h3
  have hP : ∀ y, Spec.HasNodeLayer cs.length al ops' y ↔ ∃ x, Spec.HasNodeLayer cs.length al ops x ∧ y = g x := l.nodeLayers
  have hw' : ∀ u v, Spec.HasNodeLayer cs.length al ops' u → Spec.HasNodeLayer cs.length al ops' v →
      Spec.weight cs dir al ops' u v ≠ 0 → 0 ≤ Spec.weight cs dir al ops' u v := by
    intro u v hu hv hne
    obtain ⟨a, ha, rfl⟩ := (hP u).1 hu
    obtain ⟨b, hb, rfl⟩ := (hP v).1 hv
    rw [hR a b ha hb] at hne ⊢
    exact hw a b ha hb hne
  have hsrc' : ∀ y ∈ src.map g, Spec.HasNodeLayer cs.length al ops' y := by
    intro y hy
    obtain ⟨x, hx, rfl⟩ := List.mem_map.1 hy
    exact (hP _).2 ⟨x, hsrc x hx, rfl⟩
  have hre : ∀ {x} (_ : Spec.HasNodeLayer cs.length al ops x) ℓ, _ := fun {x} hx ℓ => reaches_renamed (z := (0 : W)) hP hR hi hsrc hx ℓ
  obtain ⟨A, B⟩ := C37_multiplex dir hU hs hal hw hsrc hpop
  obtain ⟨A', B'⟩ := C37_multiplex dir hU1 l.noself hal hw' hsrc' hpop'
  refine ⟨_, e1, ?_, fun fuel fuel' r r' hr hr' => ?_⟩
  · rw [B, B']
    constructor
    · intro H y ℓ hy hz
      obtain ⟨x, hx, rfl⟩ := reaches_from hP hR hi hsrc hy
      exact H x ℓ ((hre hx ℓ).1 hy) ((zeroCycle_renamed hP hR hi hx).1 hz)
    · intro H x ℓ hxr hz
      have hx : Spec.HasNodeLayer cs.length al ops x := by obtain ⟨y, -, hs, -⟩ := hz; exact hs.1
      exact H (g x) ℓ ((hre hx ℓ).2 hxr) ((zeroCycle_renamed hP hR hi hx).2 hz)
  · obtain ⟨D, F, rfl, d1, d2, -⟩ := A fuel r hr
    obtain ⟨D', F', rfl, d1', d2', -⟩ := A' fuel' r' hr'
    refine ⟨D, F, D', F', rfl, rfl, fun x hx => ?_, fun y hy => ?_⟩
    · apply Option.ext
      intro t
      rw [d1, d1']
      unfold Spec.IsDist
      exact and_congr (hre hx t) (forall_congr' fun ℓ => imp_congr (hre hx ℓ) Iff.rfl)
    · obtain ⟨t, ht⟩ : ∃ t, Dict.get D' y = some t := by
        rcases e : Dict.get D' y with _ | t
        · exact absurd hy (Dict.get_eq_none.1 e)
        · exact ⟨t, rfl⟩
      exact reaches_from hP hR hi hsrc ((d1' y t).1 ht).1

/-- A priority queue for the example, as `popMin`. -/
def popMinI (q : List (QEntry Int Int)) : QEntry Int Int × List (QEntry Int Int) :=
  match q.insertionSort (fun a b => a.1 ≤ b.1) with
  | [] => ((0, [], []), [])
  | e :: t => (e, t)

theorem popMinI_least : Spec.PopsLeast popMinI := by
  intro q hq
  have hp := List.perm_insertionSort (fun a b : QEntry Int Int => a.1 ≤ b.1) q
  have hs := List.pairwise_insertionSort (fun a b : QEntry Int Int => a.1 ≤ b.1) q
  unfold popMinI
  cases hc : q.insertionSort (fun a b => a.1 ≤ b.1) with
  | nil => rw [hc] at hp; exact absurd hp.symm.eq_nil hq
  | cons e t =>
    rw [hc] at hp hs
    refine ⟨hp, fun x hx => ?_⟩
    rcases List.mem_cons.1 (hp.symm.subset hx) with rfl | hx
    · exact le_rfl
    · exact List.rel_of_pairwise_cons hs hx

/-- the nodes 1 and 2 of a multiplex network exchanged; from node 1 on layer 10 to node 3 on layer 20: over the link of weight 5 on layer 10,
the coupling, and the link of weight 5 on layer 20 -/
example : ∃ D F D' F', (afterP [.categorical (1 : Int)] false 0 true isoOpsA).view.dijkstra popMinI [[1, 10]] 40 = some (.ok (D, F)) ∧
    (afterP [.categorical (1 : Int)] false 0 true isoOpsB).view.dijkstra popMinI [[2, 10]] 40 = some (.ok (D', F')) ∧
    Dict.get D' [3, 20] = Dict.get D [3, 20] ∧ Dict.get D' [1, 20] = Dict.get D [2, 20] ∧ Dict.get D [3, 20] = some 11 := by
  have hU : Spec.Usable [.categorical (1 : Int)] true isoOpsA := ⟨by simp, by simp, by rintro (_ | d) w x h <;> simp at h⟩
  obtain ⟨l, l1, -, l3⟩ := after_nodeLayers hU.some_aspect false 0 true isoOpsA
  have l2 : (afterP [.categorical (1 : Int)] false 0 true isoOpsA).nodeLayers =
      .ok [[1, 10], [1, 20], [2, 10], [2, 20], [3, 10], [3, 20]] := by decide +kernel
  cases l1.symm.trans l2
  have pos : ∀ a ∈ [[1, 10], [1, 20], [2, 10], [2, 20], [3, 10], [3, (20 : Int)]], ∀ b ∈ [[1, 10], [1, 20], [2, 10], [2, 20], [3, 10], [3, (20 : Int)]],
      0 ≤ (afterP [.categorical (1 : Int)] false 0 true isoOpsA).R a b := by decide +kernel
  obtain ⟨m', e, -, k⟩ := C168_multiplex (src := [[1, 10]]) false hU (by intro L i w h; simp [isoOpsA] at h) (Or.inl rfl)
    (fun u v hu hv _ => by
      rw [← main_R hU hu hv]
      exact pos u ((l3 u).2 hu) v ((l3 v).2 hv))
    (fun x hx => by rw [List.mem_singleton.1 hx]; exact (l3 _).1 (by decide)) popMinI_least popMinI_least
    [(1, 2), (2, 1)] [[]] (fun k _ x y _ _ h => swapI_inj k x y h) (by rintro (_ | d) w x h <;> simp at h)
  rw [isoOps_relabel] at e
  cases e
  obtain ⟨r, hr⟩ : ∃ r, (afterP [.categorical (1 : Int)] false 0 true isoOpsA).view.dijkstra popMinI [[1, 10]] 40 = some r :=
    Option.isSome_iff_exists.1 (by decide +kernel)
  obtain ⟨r', hr'⟩ : ∃ r, (afterP [.categorical (1 : Int)] false 0 true isoOpsB).view.dijkstra popMinI [[2, 10]] 40 = some r :=
    Option.isSome_iff_exists.1 (by decide +kernel)
  obtain ⟨D, F, D', F', rfl, rfl, a, -⟩ := k 40 40 r r' hr hr'
  have b : ((afterP [.categorical (1 : Int)] false 0 true isoOpsA).view.dijkstra popMinI [[1, 10]] 40).map
      (fun r => r.toOption.map fun p => Dict.get p.1 [3, 20]) = some (some (some 11)) := by decide +kernel
  rw [hr] at b
  refine ⟨D, F, D', F', hr, hr', a [3, 20] ((l3 _).1 (by decide)), a [2, 20] ((l3 _).1 (by decide)), ?_⟩
  simpa [Except.toOption] using b

end Pymnet
