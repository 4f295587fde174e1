import Verif.Props.DistPartsPlex

/-! C170: distances satisfy the triangle inequality and are symmetric in undirected networks. -/

set_option linter.unusedSectionVars false

namespace Pymnet

open Py MPlex

section walks

variable {V W : Type} [CommRing W] {Step : V → V → Prop} {w : V → V → W}

/-- Internal: one walk after another. -/
theorem walk_trans {a b c : V} {ℓ k : W} (h : Spec.Walk Step w a b ℓ) (h' : Spec.Walk Step w b c k) : Spec.Walk Step w a c (ℓ + k) := by
  induction h' with
  | nil => rw [add_zero]; exact h
  | snoc _ hs ih => rw [← add_assoc]; exact .snoc ih hs

/-- Internal: a walk backwards. -/
theorem walk_rev (hS : ∀ a b, Step a b → Step b a) (hw : ∀ a b, Step a b → w a b = w b a) {a b : V} {ℓ : W}
    (h : Spec.Walk Step w a b ℓ) : Spec.Walk Step w b a ℓ := by
  induction h with
  | nil => exact .nil _
  | @snoc b c ℓ _ hs ih =>
    have h1 := Spec.Walk.snoc (.nil c) (hS _ _ hs) (w := w)
    rw [zero_add, ← hw _ _ hs] at h1
    rw [add_comm]
    exact walk_trans h1 ih

end walks

variable {α W : Type} [DecidableEq α] [DecidableEq W]
variable {m : MNet α W} {d : Nat} {z : W} {dir al : Bool} {S : Nat → α → Prop} {NL : List α → Prop} {R : List α → List α → W}
  [CommRing W] [LinearOrder W] [IsStrictOrderedRing W]
  {pop pop' : List (QEntry α W) → QEntry α W × List (QEntry α W)}

/-- **C170, the triangle inequality.** For every general network without negative weights, directed or not, and node-layers `a` and `b`: if
`dijkstra` returns from each of them, `a` has the distance 0 from itself, and if `b` has the distance `t` from `a`, then each node-layer with
the distance `t'` from `b` has a distance from `a`, which is at most `t + t'`. -/
theorem C170_triangle (h : Spec.Looks m d z dir al S NL R) (hw : ∀ a b, NL a → NL b → R a b ≠ z → 0 ≤ R a b)
    (hpop : Spec.PopsLeast pop) (hpop' : Spec.PopsLeast pop') {a b : List α} (ha : NL a) (hb : NL b) {fuel fuel' : Nat}
    {r r' : Except Err (Dict (List α) W × MNet α W)} (hr : m.view.dijkstra pop [a] fuel = some r) (hr' : m.view.dijkstra pop' [b] fuel' = some r') :
    ∃ D F D' F', r = .ok (D, F) ∧ r' = .ok (D', F') ∧ Dict.get D a = some 0 ∧
      ∀ t c t', Dict.get D b = some t → Dict.get D' c = some t' → ∃ t'', Dict.get D c = some t'' ∧ t'' ≤ t + t' := by
  obtain ⟨D, F, rfl, d1, d2, -⟩ := C37_distances h hw (by simpa using ha) hpop fuel r hr
  obtain ⟨D', F', rfl, d1', -, -⟩ := C37_distances h hw (by simpa using hb) hpop' fuel' r' hr'
  refine ⟨D, F, D', F', rfl, rfl, (d1 a 0).2 ⟨⟨a, by simp, .nil _⟩, ?_⟩, fun t c t' ht ht' => ?_⟩
  · rintro ℓ ⟨s, -, hwk⟩
    exact walk_nonneg (fun a b (h : Spec.LinkStep NL z R a b) => hw a b h.1 h.2.1 h.2.2) hwk
  · obtain ⟨s, hs, w1⟩ := ((d1 b t).1 ht).1
    obtain ⟨s', hs', w2⟩ := ((d1' c t').1 ht').1
    obtain rfl := List.mem_singleton.1 hs
    obtain rfl := List.mem_singleton.1 hs'
    have k : Spec.Reaches (Spec.LinkStep NL z R) R [s] c (t + t') := ⟨s, by simp, walk_trans w1 w2⟩
    obtain ⟨t'', e⟩ := d2 c _ k
    exact ⟨t'', e, ((d1 c t'').1 e).2 _ k⟩

/-- **C170, symmetry.** In undirected networks the distance from `a` to `b` is the distance from `b` to `a`; either both exist or none. -/
theorem C170_symmetric (h : Spec.Looks m d z false al S NL R) (hw : ∀ a b, NL a → NL b → R a b ≠ z → 0 ≤ R a b)
    (hpop : Spec.PopsLeast pop) (hpop' : Spec.PopsLeast pop') {a b : List α} (ha : NL a) (hb : NL b) {fuel fuel' : Nat}
    {r r' : Except Err (Dict (List α) W × MNet α W)} (hr : m.view.dijkstra pop [a] fuel = some r) (hr' : m.view.dijkstra pop' [b] fuel' = some r') :
    ∃ D F D' F', r = .ok (D, F) ∧ r' = .ok (D', F') ∧ Dict.get D b = Dict.get D' a := by
  obtain ⟨D, F, rfl, d1, -, -⟩ := C37_distances h hw (by simpa using ha) hpop fuel r hr
  obtain ⟨D', F', rfl, d1', -, -⟩ := C37_distances h hw (by simpa using hb) hpop' fuel' r' hr'
  have sy : ∀ x y, NL x → NL y → R x y = R y x := fun x y hx hy => h.sym (h.nl_length hx) (h.nl_length hy)
  have rv : ∀ x y ℓ, Spec.Walk (Spec.LinkStep NL z R) R x y ℓ → Spec.Walk (Spec.LinkStep NL z R) R y x ℓ := fun x y ℓ hk =>
    walk_rev (fun x y hs => ⟨hs.2.1, hs.1, by rw [← sy x y hs.1 hs.2.1]; exact hs.2.2⟩) (fun x y hs => sy x y hs.1 hs.2.1) hk
  have re : ∀ ℓ, Spec.Reaches (Spec.LinkStep NL z R) R [a] b ℓ ↔ Spec.Reaches (Spec.LinkStep NL z R) R [b] a ℓ := by
    intro ℓ
    constructor
    · rintro ⟨s, hs, hk⟩; obtain rfl := List.mem_singleton.1 hs; exact ⟨b, by simp, rv _ _ _ hk⟩
    · rintro ⟨s, hs, hk⟩; obtain rfl := List.mem_singleton.1 hs; exact ⟨a, by simp, rv _ _ _ hk⟩
  refine ⟨D, F, D', F', rfl, rfl, Option.ext fun t => ?_⟩
  rw [d1, d1']
  exact and_congr (re t) (forall_congr' fun ℓ => imp_congr (re ℓ) Iff.rfl)

/-- between node 2 on layer 11 and node 3 on layer 11, over node 1 on the layers 11 and 10 -/
example : ∃ D F D' F', (after 1 0 false true transOps).view.dijkstra popMin [[2, 11]] 60 = some (.ok (D, F)) ∧
    (after 1 0 false true transOps).view.dijkstra popMin [[3, 11]] 60 = some (.ok (D', F')) ∧
    Dict.get D [3, 11] = some 9 ∧ Dict.get D' [2, 11] = some 9 ∧
    ∀ t c t', Dict.get D [3, 11] = some t → Dict.get D' c = some t' → ∃ t'', Dict.get D c = some t'' ∧ t'' ≤ t + t' := by
  have l := network_looks 1 (0 : Int) false true transOps
  have ha := (l.nodeLayers.2 [2, 11]).1 (by decide)
  have hb := (l.nodeLayers.2 [3, 11]).1 (by decide)
  obtain ⟨r, hr⟩ : ∃ r, (after 1 0 false true transOps).view.dijkstra popMin [[2, 11]] 60 = some r :=
    Option.isSome_iff_exists.1 (by decide +kernel)
  obtain ⟨r', hr'⟩ : ∃ r, (after 1 0 false true transOps).view.dijkstra popMin [[3, 11]] 60 = some r :=
    Option.isSome_iff_exists.1 (by decide +kernel)
  have b : ((after 1 0 false true transOps).view.dijkstra popMin [[2, 11]] 60).map (fun r => r.toOption.map fun p =>
      Dict.get p.1 [3, 11]) = some (some (some 9)) := by decide +kernel
  obtain ⟨D, F, D', F', rfl, rfl, e⟩ := C170_symmetric l (fun a b ha hb _ => transOps_nonneg a b ha hb) popMin_least popMin_least ha hb hr hr'
  obtain ⟨_, _, _, _, q1, q2, -, k⟩ := C170_triangle l (fun a b ha hb _ => transOps_nonneg a b ha hb) popMin_least popMin_least ha hb hr hr'
  cases q1
  cases q2
  rw [hr] at b
  simp [Except.toOption] at b
  exact ⟨D, F, D', F', hr, hr', b, e ▸ b, k⟩

/-- **C170 for multiplex networks**: the triangle inequality and, in undirected networks, symmetry. -/
theorem C170_multiplex [LawfulIntNames α] {cs : List (Coupling α W)} {ops : List (POp α W)} (hU : Spec.Usable cs al ops) (hs : Spec.NoIntraSelf ops)
    (hal : al = true ∨ ∃ w, cs = [.categorical w])
    (hw : ∀ a b, Spec.HasNodeLayer cs.length al ops a → Spec.HasNodeLayer cs.length al ops b →
      Spec.weight cs dir al ops a b ≠ 0 → 0 ≤ Spec.weight cs dir al ops a b)
    (hpop : Spec.PopsLeast pop) (hpop' : Spec.PopsLeast pop') {a b : List α} (ha : Spec.HasNodeLayer cs.length al ops a)
    (hb : Spec.HasNodeLayer cs.length al ops b) {fuel fuel' : Nat} {r r' : Except Err (Dict (List α) W × MNet α W)}
    (hr : (afterP cs dir 0 al ops).view.dijkstra pop [a] fuel = some r) (hr' : (afterP cs dir 0 al ops).view.dijkstra pop' [b] fuel' = some r') :
    ∃ D F D' F', r = .ok (D, F) ∧ r' = .ok (D', F') ∧ Dict.get D a = some 0 ∧
      (∀ t c t', Dict.get D b = some t → Dict.get D' c = some t' → ∃ t'', Dict.get D c = some t'' ∧ t'' ≤ t + t') ∧
      (dir = false → Dict.get D b = Dict.get D' a) := by
  obtain ⟨D, F, rfl, d1, d2, -⟩ := (C37_multiplex dir hU hs hal hw (by simpa using ha) hpop).1 fuel r hr
  obtain ⟨D', F', rfl, d1', -, -⟩ := (C37_multiplex dir hU hs hal hw (by simpa using hb) hpop').1 fuel' r' hr'
  refine ⟨D, F, D', F', rfl, rfl, (d1 a 0).2 ⟨⟨a, by simp, .nil _⟩, ?_⟩, fun t c t' ht ht' => ?_, fun hd => Option.ext fun t => ?_⟩
  · rintro ℓ ⟨s, -, hwk⟩
    exact walk_nonneg (fun a b (h : Spec.LinkStep _ _ _ a b) => hw a b h.1 h.2.1 h.2.2) hwk
  · obtain ⟨s, hs, w1⟩ := ((d1 b t).1 ht).1
    obtain ⟨s', hs', w2⟩ := ((d1' c t').1 ht').1
    obtain rfl := List.mem_singleton.1 hs
    obtain rfl := List.mem_singleton.1 hs'
    have k : Spec.Reaches (Spec.LinkStep (Spec.HasNodeLayer cs.length al ops) 0 (Spec.weight cs dir al ops)) (Spec.weight cs dir al ops) [s] c (t + t') :=
      ⟨s, by simp, walk_trans w1 w2⟩
    obtain ⟨t'', e⟩ := d2 c _ k
    exact ⟨t'', e, ((d1 c t'').1 e).2 _ k⟩
  · subst hd
    have sy : ∀ x y, Spec.HasNodeLayer cs.length al ops x → Spec.HasNodeLayer cs.length al ops y →
        Spec.weight cs false al ops x y = Spec.weight cs false al ops y x := fun x y hx hy =>
      R_symm_after hU.some_aspect false al ops hU hs hal rfl hx hy
    have rv : ∀ x y ℓ, Spec.Walk (Spec.LinkStep (Spec.HasNodeLayer cs.length al ops) 0 (Spec.weight cs false al ops)) (Spec.weight cs false al ops) x y ℓ →
        Spec.Walk (Spec.LinkStep (Spec.HasNodeLayer cs.length al ops) 0 (Spec.weight cs false al ops)) (Spec.weight cs false al ops) y x ℓ := fun x y ℓ hk =>
      walk_rev (fun x y hs => ⟨hs.2.1, hs.1, by rw [← sy x y hs.1 hs.2.1]; exact hs.2.2⟩) (fun x y hs => sy x y hs.1 hs.2.1) hk
    have re : ∀ ℓ, Spec.Reaches (Spec.LinkStep (Spec.HasNodeLayer cs.length al ops) 0 (Spec.weight cs false al ops)) (Spec.weight cs false al ops) [a] b ℓ ↔
        Spec.Reaches (Spec.LinkStep (Spec.HasNodeLayer cs.length al ops) 0 (Spec.weight cs false al ops)) (Spec.weight cs false al ops) [b] a ℓ := by
      intro ℓ
      constructor
      · rintro ⟨s, hs, hk⟩; obtain rfl := List.mem_singleton.1 hs; exact ⟨b, by simp, rv _ _ _ hk⟩
      · rintro ⟨s, hs, hk⟩; obtain rfl := List.mem_singleton.1 hs; exact ⟨a, by simp, rv _ _ _ hk⟩
    rw [d1, d1']
    exact and_congr (re t) (forall_congr' fun ℓ => imp_congr (re ℓ) Iff.rfl)

example : ∃ D F D' F', (afterP [.categorical (1 : Int)] false 0 true isoOpsA).view.dijkstra popMinI [[1, 10]] 40 = some (.ok (D, F)) ∧
    (afterP [.categorical (1 : Int)] false 0 true isoOpsA).view.dijkstra popMinI [[3, 20]] 40 = some (.ok (D', F')) ∧
    Dict.get D [3, 20] = some 11 ∧ Dict.get D' [1, 10] = some 11 := by
  have hU : Spec.Usable [.categorical (1 : Int)] true isoOpsA := ⟨by simp, by simp, by rintro (_ | d) w x h <;> simp at h⟩
  obtain ⟨l, l1, -, l3⟩ := after_nodeLayers hU.some_aspect false 0 true isoOpsA
  have l2 : (afterP [.categorical (1 : Int)] false 0 true isoOpsA).nodeLayers =
      .ok [[1, 10], [1, 20], [2, 10], [2, 20], [3, 10], [3, 20]] := by decide +kernel
  cases l1.symm.trans l2
  have pos : ∀ a ∈ [[1, 10], [1, 20], [2, 10], [2, 20], [3, 10], [3, (20 : Int)]], ∀ b ∈ [[1, 10], [1, 20], [2, 10], [2, 20], [3, 10], [3, (20 : Int)]],
      0 ≤ (afterP [.categorical (1 : Int)] false 0 true isoOpsA).R a b := by decide +kernel
  obtain ⟨r, hr⟩ : ∃ r, (afterP [.categorical (1 : Int)] false 0 true isoOpsA).view.dijkstra popMinI [[1, 10]] 40 = some r :=
    Option.isSome_iff_exists.1 (by decide +kernel)
  obtain ⟨r', hr'⟩ : ∃ r, (afterP [.categorical (1 : Int)] false 0 true isoOpsA).view.dijkstra popMinI [[3, 20]] 40 = some r :=
    Option.isSome_iff_exists.1 (by decide +kernel)
  have b : ((afterP [.categorical (1 : Int)] false 0 true isoOpsA).view.dijkstra popMinI [[1, 10]] 40).map
      (fun r => r.toOption.map fun p => Dict.get p.1 [3, 20]) = some (some (some 11)) := by decide +kernel
  obtain ⟨D, F, D', F', rfl, rfl, -, -, e⟩ := C170_multiplex hU (by intro L i w h; simp [isoOpsA] at h) (Or.inl rfl)
    (fun u v hu hv _ => by
      rw [← main_R hU hu hv]
      exact pos u ((l3 u).2 hu) v ((l3 v).2 hv)) popMinI_least popMinI_least ((l3 _).1 (by decide)) ((l3 _).1 (by decide)) hr hr'
  rw [hr] at b
  simp [Except.toOption] at b
  exact ⟨D, F, D', F', hr, hr', b, e rfl ▸ b⟩

end Pymnet
