import Verif.Props.IsoPlex

/-! C160 for multiplex networks. -/

set_option linter.unusedSectionVars false

namespace Pymnet

open Py MPlex

variable {α W : Type} [DecidableEq α] [DecidableEq W]

variable [Zero W] [LawfulIntNames α] [LE W] [LT W] [DecidableLE W] [DecidableLT W] {cs : List (Coupling α W)} {ops : List (POp α W)}

/-- Internal: links with the same weights. -/
theorem weight_congr {dir al : Bool} {ops' : List (POp α W)} {u v u' v' : List α}
    (h : ∀ w, Spec.LinkWeight cs dir al ops u v w ↔ Spec.LinkWeight cs dir al ops' u' v' w) :
    Spec.weight cs dir al ops u v = Spec.weight cs dir al ops' u' v' := by
  have e : Spec.LinkWeight cs dir al ops u v = Spec.LinkWeight cs dir al ops' u' v' := funext fun w => propext (h w)
  unfold Spec.weight
  rw [e]

/-- **C160, multiplex networks: thresholds commute.** For every node-aligned multiplex network with missing value 0 and categorical or ordinal
couplings, and without self-links written through an intra-layer network: it does not matter which of two thresholds, by any of the rules,
is applied first, and applying the same one twice is applying it once. -/
theorem C160_multiplex_commutes (dir : Bool) (hU : Spec.Usable cs true ops) (hs : Spec.NoIntraSelf ops) (t1 t2 : W) {r1 r2 : Method}
    (hr1 : r1 ≠ .invalid) (hr2 : r2 ≠ .invalid) :
    ∃ m1 m12 m2 m21 m11, (afterP cs dir 0 true ops).view.threshold t1 r1 = .ok m1 ∧ m1.view.threshold t2 r2 = .ok m12 ∧
      (afterP cs dir 0 true ops).view.threshold t2 r2 = .ok m2 ∧ m2.view.threshold t1 r1 = .ok m21 ∧ m12.eq m21 = .ok true ∧
      m1.view.threshold t1 r1 = .ok m11 ∧ m11.eq m1 = .ok true := by
  classical
  obtain ⟨m1, R1, e1, l1, k1⟩ := C32_threshold_multiplex_partial dir hU hs t1 hr1
  obtain ⟨m2, R2, e2, l2, k2⟩ := C32_threshold_multiplex_partial dir hU hs t2 hr2
  obtain ⟨m12, e12, l12⟩ := C32_threshold_partial l1 t2 hr2
  obtain ⟨m21, e21, l21⟩ := C32_threshold_partial l2 t1 hr1
  obtain ⟨m11, e11, l11⟩ := C32_threshold_partial l1 t1 hr1
  refine ⟨m1, m12, m2, m21, m11, e1, e12, e2, e21, ?_, e11, ?_⟩
  · refine l12.eq (l21.congr (fun _ _ _ => Iff.rfl) (fun _ => Iff.rfl) fun u v hu hv => ?_) (Or.inl rfl)
    by_cases hn : Spec.HasNodeLayer cs.length true ops u ∧ Spec.HasNodeLayer cs.length true ops v
    · rw [k1 u v hn.1 hn.2, k2 u v hn.1 hn.2]
      by_cases q1 : Spec.Keeps t1 (Spec.weight cs dir true ops u v) r1 <;> by_cases q2 : Spec.Keeps t2 (Spec.weight cs dir true ops u v) r2 <;>
        simp [q1, q2]
    · have z1 : R1 u v = 0 := by
        by_contra q; have := l1.linked hu hv q; exact hn ⟨this.1.2, this.2.2⟩
      have z2 : R2 u v = 0 := by
        by_contra q; have := l2.linked hu hv q; exact hn ⟨this.1.2, this.2.2⟩
      simp [z1, z2]
  · refine l11.eq (l1.congr (fun _ _ _ => Iff.rfl) (fun _ => Iff.rfl) fun u v hu hv => ?_) (Or.inl rfl)
    by_cases hn : Spec.HasNodeLayer cs.length true ops u ∧ Spec.HasNodeLayer cs.length true ops v
    · rw [k1 u v hn.1 hn.2]
      by_cases q1 : Spec.Keeps t1 (Spec.weight cs dir true ops u v) r1 <;> simp [q1]
    · have z1 : R1 u v = 0 := by
        by_contra q; have := l1.linked hu hv q; exact hn ⟨this.1.2, this.2.2⟩
      simp [z1]

/-- **C160, multiplex networks: a threshold and a renaming commute**, if different names stay different and the layers of ordinal aspects keep
their names. -/
theorem C160_multiplex_relabel (dir : Bool) (hU : Spec.Usable cs true ops) (hs : Spec.NoIntraSelf ops) (t : W) {r : Method} (hr : r ≠ .invalid)
    (nodes : Dict α α) (layers : List (Dict α α))
    (hinj : ∀ k ≤ cs.length, ∀ x y, Spec.CarriesName cs.length true ops k x → Spec.CarriesName cs.length true ops k y →
      Spec.newName nodes layers k x = Spec.newName nodes layers k y → x = y)
    (hord : ∀ d w x, cs[d]? = some (.ordinal w) → Spec.newName nodes layers (d + 1) x = x) :
    ∃ m1 m12 p2 m21, (afterP cs dir 0 true ops).view.threshold t r = .ok m1 ∧ m1.relabel nodes layers = .ok m12 ∧
      (afterP cs dir 0 true ops).relabel nodes layers = .ok p2 ∧ p2.view.threshold t r = .ok m21 ∧ m12.eq m21 = .ok true := by
  classical
  have hcs := hU.some_aspect
  have hnet : ∀ c, .net c ∉ cs := by
    intro c hc
    obtain ⟨w, -, h | h⟩ := hU.kind _ hc <;> cases h
  have nm0 : ∀ {ops : List (POp α W)} x, Spec.CarriesName cs.length true ops 0 x ↔ Spec.Happened (Spec.NamesNodeP cs.length true x) ops := fun x => by
    unfold Spec.CarriesName; simp
  have nmS : ∀ {ops : List (POp α W)} a, 1 ≤ a → ∀ x, Spec.CarriesName cs.length true ops a x ↔ ∃ op ∈ ops, Spec.NamesLayerP cs.length true a x op := fun a ha x => by
    unfold Spec.CarriesName; rw [if_neg (by omega)]
  obtain ⟨ops', e2, l⟩ := C85_relabel (cs := cs) (dir := dir) (z := 0) (al := true) hcs hnet hs nodes layers
    (fun x y hx hy => hinj 0 (by omega) x y ((nm0 x).2 hx) ((nm0 y).2 hy))
    (fun a ha hle x y hx hy => hinj a hle x y ((nmS a ha x).2 hx) ((nmS a ha y).2 hy))
  set f := Spec.newName nodes layers with hf
  have hU1 : Spec.Usable cs true ops' := ⟨hcs, hU.kind, fun d w x hd hx => by
    obtain ⟨y, hy, rfl⟩ := (l.layers (d + 1) x (by omega) (by have := (List.getElem?_eq_some_iff.1 hd).1; omega)).1 hx
    rw [hord d w y hd]
    exact hU.ints d w y hd hy⟩
  obtain ⟨m1, R1, e1, l1, k1⟩ := C32_threshold_multiplex_partial dir hU hs t hr
  obtain ⟨m21, R21, e21, l21, k21⟩ := C32_threshold_multiplex_partial dir hU1 l.noself t hr
  obtain ⟨m12, R12, e12, l12, a12, b12⟩ := C30_relabel l1 nodes layers hinj
  refine ⟨m1, m12, _, m21, e1, e12, e2, e21, ?_⟩
  refine l12.eq (l21.congr (fun k hk y => ?_) l.nodeLayers fun u v hu hv => ?_) (Or.inl rfl)
  · rcases k with _ | k
    · simpa using l.nodes y
    · simpa using l.layers (k + 1) y (by omega) hk
  · by_cases hx : Spec.HasNodeLayer cs.length true ops' u ∧ Spec.HasNodeLayer cs.length true ops' v
    · rw [k21 u v hx.1 hx.2]
      obtain ⟨a, ha, rfl⟩ := (l.nodeLayers u).1 hx.1
      obtain ⟨b, hb, rfl⟩ := (l.nodeLayers v).1 hx.2
      rw [a12 a b ha hb, k1 a b ha hb, weight_congr (linkWeight_renamed hcs hinj hord l ha hb)]
    · have z1 : R21 u v = 0 := by
        by_contra q; have := l21.linked hu hv q; exact hx ⟨this.1.2, this.2.2⟩
      have z2 : R12 u v = 0 := by
        by_contra q
        obtain ⟨a, b, ha, hb, rfl, rfl⟩ := b12 u v q
        exact hx ⟨(l.nodeLayers _).2 ⟨a, ha, rfl⟩, (l.nodeLayers _).2 ⟨b, hb, rfl⟩⟩
      rw [z1, z2]

/-- **C160, multiplex networks: a threshold and a selection commute**, if the layers that are listed exist. -/
theorem C160_multiplex_subnet (dir : Bool) (hU : Spec.Usable cs true ops) (hs : Spec.NoIntraSelf ops) (t : W) {r : Method} (hr : r ≠ .invalid)
    {sel : List (Option (List α))} (hsel : sel.length = cs.length + 1)
    (hex : ∀ s, Spec.Asked cs.length true ops sel s → Spec.HasLayer cs.length true ops (.ofList s)) :
    ∃ m1 m12 p2 m21, (afterP cs dir 0 true ops).view.threshold t r = .ok m1 ∧ m1.subnet sel false = .ok m12 ∧
      (afterP cs dir 0 true ops).subnet sel false = .ok p2 ∧ p2.view.threshold t r = .ok m21 ∧ m12.eq m21 = .ok true := by
  classical
  have hcs := hU.some_aspect
  have hnet : ∀ c, .net c ∉ cs := by
    intro c hc
    obtain ⟨w, -, h | h⟩ := hU.kind _ hc <;> cases h
  obtain ⟨ops', e2, l⟩ := C84_subnet (dir := dir) (z := 0) (ops := ops) (al := true) hcs hnet hsel false (Or.inr hex)
  have hU1 : Spec.Usable cs true ops' := ⟨hcs, hU.kind, fun d w x hd hx => hU.ints d w x hd ((l.layers (d + 1) x (by omega) (by
    have := (List.getElem?_eq_some_iff.1 hd).1; omega)).1 hx).1⟩
  have chosen : ∀ k x, k ≤ cs.length → (Spec.Chosen sel k x ↔ ∀ l, sel[k]? = some (some l) → x ∈ l) := by
    intro k x hk
    have hlt : k < sel.length := by omega
    unfold Spec.Chosen
    rw [List.getElem?_eq_getElem hlt]
    simp
  have chosenNL : ∀ u : List α, u.length = cs.length + 1 → (Spec.ChosenNL sel u ↔ Spec.Selected sel u) := by
    intro u hu
    have lt : ∀ {i : Nat} {x : α}, u[i]? = some x → i ≤ cs.length := fun h => by
      have := (List.getElem?_eq_some_iff.1 h).1
      omega
    constructor
    · intro h i x l hx hl; exact (chosen i x (lt hx)).1 (h i x hx) l hl
    · intro h i x hx; exact (chosen i x (lt hx)).2 fun l hl => h i x l hx hl
  have len : ∀ {u}, Spec.HasNodeLayer cs.length true ops u → u.length = cs.length + 1 := by
    rintro u ⟨n, s, rfl, h, -⟩; simp [h]
  have nls : ∀ u, Spec.HasNodeLayer cs.length true ops' u ↔ Spec.HasNodeLayer cs.length true ops u ∧ Spec.Selected sel u := by
    intro u
    rw [l.nodeLayers]
    exact and_congr_right fun h => chosenNL u (len h)
  obtain ⟨m1, R1, e1, l1, k1⟩ := C32_threshold_multiplex_partial dir hU hs t hr
  obtain ⟨m21, R21, e21, l21, k21⟩ := C32_threshold_multiplex_partial dir hU1 (l.noself hs) t hr
  obtain ⟨m12, e12, l12⟩ := C28_subnet_partial l1 hsel false
  refine ⟨m1, m12, _, m21, e1, e12, e2, e21, ?_⟩
  refine l12.eq (l21.congr (fun k hk x => ?_) nls fun u v hu hv => ?_) (Or.inl rfl)
  · simp only [Bool.true_eq_false, false_and, if_false]
    rw [← chosen k x hk]
    rcases k with _ | k
    · simpa using l.nodes x
    · simpa using l.layers (k + 1) x (by omega) hk
  · by_cases hx : Spec.HasNodeLayer cs.length true ops' u ∧ Spec.HasNodeLayer cs.length true ops' v
    · obtain ⟨⟨hu1, hu2⟩, ⟨hv1, hv2⟩⟩ := And.intro ((nls u).1 hx.1) ((nls v).1 hx.2)
      have hcu := (chosenNL u hu).2 hu2
      have hcv := (chosenNL v hv).2 hv2
      have hw : Spec.weight cs dir true ops' u v = Spec.weight cs dir true ops u v := weight_congr fun w => by
        unfold Spec.LinkWeight
        refine or_congr_left (exists_congr fun i => exists_congr fun j => exists_congr fun s => and_congr_right fun hus =>
          and_congr_right fun hvs => ?_)
        subst hus hvs
        rw [l.link s i j (by simpa using hu), if_pos ⟨rfl, fun k x h => hcu (k + 1) x (by simpa using h), hcu 0 i rfl, hcv 0 j rfl⟩]
      have hsl : false = false ∧ Spec.Selected sel u ∧ Spec.Selected sel v := ⟨rfl, hu2, hv2⟩
      rw [k21 u v hx.1 hx.2, hw, if_pos hsl, k1 u v hu1 hv1]
    · have z1 : R21 u v = 0 := by
        by_contra q; have := l21.linked hu hv q; exact hx ⟨this.1.2, this.2.2⟩
      rw [z1]
      split_ifs with hc
      · by_contra q
        have := l1.linked hu hv (Ne.symm q)
        exact hx ⟨(nls u).2 ⟨this.1.2, hc.2.1⟩, (nls v).2 ⟨this.2.2, hc.2.2⟩⟩
      · rfl

/-- a node-aligned multiplex network: two thresholds, a renaming, a selection -/
example : (∃ m1 m12 m2 m21 m11, (afterP [.categorical (1 : Int)] false 0 true exSubOps).view.threshold 6 .le = .ok m1 ∧
      m1.view.threshold 2 .ge = .ok m12 ∧ (afterP [.categorical (1 : Int)] false 0 true exSubOps).view.threshold 2 .ge = .ok m2 ∧
      m2.view.threshold 6 .le = .ok m21 ∧ m12.eq m21 = .ok true ∧ m1.view.threshold 6 .le = .ok m11 ∧ m11.eq m1 = .ok true) ∧
    (∃ m1 m12 p2 m21, (afterP [.categorical (1 : Int)] false 0 true exSubOps).view.threshold 6 .le = .ok m1 ∧
      m1.relabel [(1, 2), (2, 1)] [[]] = .ok m12 ∧ (afterP [.categorical (1 : Int)] false 0 true exSubOps).relabel [(1, 2), (2, 1)] [[]] = .ok p2 ∧
      p2.view.threshold 6 .le = .ok m21 ∧ m12.eq m21 = .ok true) ∧
    ∃ m1 m12 p2 m21, (afterP [.categorical (1 : Int)] false 0 true exSubOps).view.threshold 6 .le = .ok m1 ∧
      m1.subnet [some [1, 2], none] false = .ok m12 ∧ (afterP [.categorical (1 : Int)] false 0 true exSubOps).subnet [some [1, 2], none] false = .ok p2 ∧
      p2.view.threshold 6 .le = .ok m21 ∧ m12.eq m21 = .ok true := by
  have hU : Spec.Usable [.categorical (1 : Int)] true exSubOps := ⟨by simp, by simp, by rintro (_ | d) w x h <;> simp at h⟩
  have hs : Spec.NoIntraSelf exSubOps := by intro L i w h; simp [exSubOps] at h
  refine ⟨C160_multiplex_commutes false hU hs 6 2 (by simp) (by simp), C160_multiplex_relabel false hU hs 6 (by simp) _ _
    (fun k _ x y _ _ h => swapI_inj k x y h) (by rintro (_ | d) w x h <;> simp at h), C160_multiplex_subnet false hU hs 6 (by simp) rfl ?_⟩
  intro s h
  refine asked_hasLayer (P := fun _ _ => True) ?_ h
  rintro (_ | _ | a) l x ha hl hx
  · omega
  · simp at hl
  · simp at hl

end Pymnet
