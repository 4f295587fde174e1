import Verif.Proofs.OrbitEqsK

/-! Which orbits are in the equation of two orbits. -/

set_option linter.unusedSectionVars false
set_option linter.unusedSimpArgs false
set_option linter.unusedVariables false

namespace Pymnet

open Py MPlex

variable {α W β σ : Type} [DecidableEq α] [DecidableEq W] [Zero W] [LawfulIntNames α] [LinearOrder α] [DecidableEq σ] [One W]
  {canon : CGraph → β} {str : List (List α × Nat) × β → σ} {allowed : Option (List Nat)} {c : Coupling α W}
  {idx : Nat → α} {layers : List α} {nl N n : Nat} {T : Tables α W σ} {ol : List (Orbit α)}
  {match? : CGraph → CGraph → Option (Dict Nat Nat)} {ord : Finset α → List α} {ops ops' ops1 ops2 : List (POp α W)} {s : Finset α}
  {p p1 p2 : MPlex α W} {g g1 g2 : Spec.Multigraph α} {A1 A2 : Finset α} {v : α} {q q1 q2 : Orbit α} {neg : α → Bool} {t : Nat} {int : Int → α}

theorem AtOrbit.shown_eq {A : Finset α} (h : AtOrbit T c idx layers nl N q p g A) (hst : Stored T.nets q.1 q.2.1 (afterP [c] false 0 true ops)) :
    Spec.shown ops = g := by
  have h1 := h.stored
  obtain ⟨ops', e, -, h3⟩ := h.is
  rw [e] at h1
  rw [← h3]
  exact stored_congr hst h1

theorem fix_layers {g h : Spec.Multigraph α} {f0 f1 : α → α} (hfix : 1 ∉ Spec.mayChange 1 allowed ∨ layers.length ≤ 1)
    (hf : MIso (cplRel c) (Spec.mayChange 1 allowed) g h f0 f1) (hg : ∀ x, g.layer x → x ∈ layers) (hh : ∀ x, h.layer x → x ∈ layers)
    {x : α} (hx : g.layer x) : f1 x = x := by
  rcases hfix with hfix | hfix
  · exact hf.fix1 hfix x
  · have h1 := hg x hx
    have h2 := hh _ (hf.layers.mapsTo hx)
    match layers, hfix, h1, h2 with
    | [], _, h1, _ => simp at h1
    | [y], _, h1, h2 => exact (List.mem_singleton.1 h2).trans (List.mem_singleton.1 h1).symm
    | _ :: _ :: _, h, _, _ => simp at h

theorem AtOrbit.role {pG : MPlex α W} {G Γ : Spec.Multigraph α} {A : Finset α} (hG : AtOrbit T c idx layers nl N q pG G A) {L : α → Prop} {both : List α}
    (hs : Shape L v t Γ s both) {φ ψ : α → α} (h : MIso (cplRel c) (Spec.mayChange 1 allowed) G Γ φ ψ) (ho : φ q.2.2 = v) :
    Role c allowed T.nets Γ s v q := by
  have : Inhabited α := ⟨v⟩
  obtain ⟨r0, r1, hr', hr0, -⟩ := h.symm
  obtain ⟨ops, rfl, -, rfl⟩ := hG.is
  refine ⟨ops, hG.stored, r0, r1, hr'.congr_source (fun x => (hs.node x).symm) (fun _ => Iff.rfl) fun x i j _ _ _ => Iff.rfl, ?_⟩
  rw [← ho]
  exact hr0 _ ((hG.mem _).1 hG.rep)

theorem glue_complete (S : Setup canon str match? allowed c idx layers nl N ord T ol) (hI : IntName int neg idx)
    (hfix : 1 ∉ Spec.mayChange 1 allowed ∨ layers.length ≤ 1) (hq1 : q1 ∈ ol) (hq2 : q2 ∈ ol) (hq : q ∈ ol)
    (h1 : AtOrbit T c idx layers nl N q1 p1 g1 A1) (h2 : AtOrbit T c idx layers nl N q2 p2 g2 A2) (hc : q.1 + 1 = q1.1 + q2.1)
    (hp : 0 < pairsAt c allowed T.nets q1 q2 q) :
    (∀ x, g1.layer x ↔ g2.layer x) ∧ ∀ f0, RenamesTo neg g2 q1.2.2 q2.2.2 f0 → ∃ K : α → α → α → Prop,
      (∀ x i j, K x i j → g1.layer x ∧ (i ∈ A1 ∪ A2.image f0 ∧ i ≠ q1.2.2 ∧ neg i = false) ∧
        j ∈ A1 ∪ A2.image f0 ∧ j ≠ q1.2.2 ∧ neg j = true) ∧
      Role c allowed T.nets (addK (glueG g1 g2 f0 id) K) (A1 ∪ A2.image f0) q1.2.2 q := by
  classical
  obtain ⟨opsG, A, hG⟩ := S.atOrbit hq
  set G := Spec.shown opsG with hGdef
  rw [← pairsAt_eq hG.stored] at hp
  obtain ⟨⟨s1, s2⟩, a1, a2, a3, a4, a5, a6⟩ := Set.nonempty_of_ncard_ne_zero hp.ne'
  dsimp only at a1 a2 a3 a4 a5 a6
  have hs1 : ∀ x ∈ s1, G.node x := fun x hx => (a3 x).2 (Or.inl hx)
  have hs2 : ∀ x ∈ s2, G.node x := fun x hx => (a3 x).2 (Or.inr hx)
  have hinter : ∀ x, x ∈ s1 → x ∈ s2 → x = q.2.2 := by
    intro x k1 k2
    have : (s1 ∩ s2).card = 1 := by rw [a4]; omega
    obtain ⟨y, hy⟩ := Finset.card_eq_one.1 this
    have b1 : x ∈ s1 ∩ s2 := Finset.mem_inter.2 ⟨k1, k2⟩
    have b2 : q.2.2 ∈ s1 ∩ s2 := Finset.mem_inter.2 ⟨a1, a2⟩
    rw [hy, Finset.mem_singleton] at b1 b2
    rw [b1, b2]
  obtain ⟨o1, st1, e0, e1, he, heo⟩ := a5
  obtain ⟨o2, st2, d0, d1, hd, hdo⟩ := a6
  rw [h1.shown_eq st1] at he
  rw [h2.shown_eq st2] at hd
  have fe : ∀ x, G.layer x → e1 x = x := fun x hx => fix_layers hfix he (fun x hx => hG.is.lay hx) (fun x hx => h1.is.lay hx) hx
  have fd : ∀ x, G.layer x → d1 x = x := fun x hx => fix_layers hfix hd (fun x hx => hG.is.lay hx) (fun x hx => h2.is.lay hx) hx
  have L1 : ∀ x, G.layer x ↔ g1.layer x := by
    intro x
    constructor
    · intro hx
      have : g1.layer (e1 x) := he.layers.mapsTo hx
      rwa [fe x hx] at this
    · intro hx
      obtain ⟨y, hy, rfl⟩ := he.layers.surjOn hx
      rw [fe y hy]; exact hy
  have L2 : ∀ x, G.layer x ↔ g2.layer x := by
    intro x
    constructor
    · intro hx
      have : g2.layer (d1 x) := hd.layers.mapsTo hx
      rwa [fd x hx] at this
    · intro hx
      obtain ⟨y, hy, rfl⟩ := hd.layers.surjOn hx
      rw [fd y hy]; exact hy
  have k1 : ∀ x i j, i ∈ s1 → j ∈ s1 → G.layer x → (G.link x i j ↔ g1.link x (e0 i) (e0 j)) := by
    intro x i j hi hj hx
    have := he.links x i j hx hi hj
    rwa [fe x hx] at this
  have k2 : ∀ x i j, i ∈ s2 → j ∈ s2 → G.layer x → (G.link x i j ↔ g2.link x (d0 i) (d0 j)) := by
    intro x i j hi hj hx
    have := hd.links x i j hx hi hj
    rwa [fd x hx] at this
  refine ⟨fun x => (L1 x).symm.trans (L2 x), fun f0 hr => ?_⟩
  have hbij : Set.BijOn id {x | g2.layer x} {x | g1.layer x} := by
    rw [show {x | g1.layer x} = {x | g2.layer x} from Set.ext fun x => (L1 x).symm.trans (L2 x)]
    exact Set.bijOn_id _
  obtain ⟨K, hK, φ, hφ, φo⟩ := glue_iso S hI h1 h2 hG a1 a2 a3 hinter he heo hd hdo hbij hd.fix1 hd.coupled
    (fun x i j hi hj hx => by simp only [id]; rw [fd x hx]; exact k1 x i j hi hj hx) hr
  exact ⟨K, hK, hG.role ((glue_shape hI h1 h2 hr (f1 := id) hbij.mapsTo).1.add
    fun x i j h => ⟨(hK x i j h).1, (hK x i j h).2.1.1, (hK x i j h).2.2.1⟩) hφ φo⟩

/-- If layers may be exchanged, a graphlet of three or four nodes that is covered by one with two nodes and another one is made from one of the
combinations. -/
theorem glue_complete_perm (S : Setup canon str match? allowed c idx layers nl N ord T ol) (hI : IntName int neg idx) (hco : ∀ w, c ≠ .ordinal w)
    (hm1 : 1 ∈ Spec.mayChange 1 allowed) (hq : q ∈ ol)
    (h1 : AtOrbit T c idx layers nl N q1 p1 g1 A1) (h2 : AtOrbit T c idx layers nl N q2 p2 g2 A2) (hl : ∀ x, g1.layer x ↔ g2.layer x)
    (hc1 : q1.1 = 2) (hc2 : q2.1 ≤ 3) (hc : q.1 + 1 = q1.1 + q2.1) (hp : 0 < pairsAt c allowed T.nets q1 q2 q)
    {f0 : α → α} (hr : RenamesTo neg g2 q1.2.2 q2.2.2 f0) {combs : List (MPlex α W)} (hid : ∃ p ∈ combs, Is layers c p (glueG g1 g2 f0 id))
    (hcomb : ∀ perm : List α, perm.Nodup → (∀ x, x ∈ perm ↔ g2.layer x) → ∃ κ κ' p', ShiftOf perm κ ∧
        Set.BijOn κ {x | g2.layer x} {x | g2.layer x} ∧ Set.BijOn κ' {x | g2.layer x} {x | g2.layer x} ∧ p' ∈ combs ∧
        Is layers c p' (glueG g1 g2 f0 κ') ∧
        ∃ F0 F1, MIso (cplRel c) (Spec.mayChange 1 allowed) (glueG g1 g2 f0 κ) (glueG g1 g2 f0 κ') F0 F1) :
    ∃ κ, ∃ p ∈ combs, Set.BijOn κ {x | g2.layer x} {x | g2.layer x} ∧ Is layers c p (glueG g1 g2 f0 κ) ∧ ∃ K : α → α → α → Prop,
      (∀ x i j, K x i j → g1.layer x ∧ (i ∈ A1 ∪ A2.image f0 ∧ i ≠ q1.2.2 ∧ neg i = false) ∧
        j ∈ A1 ∪ A2.image f0 ∧ j ≠ q1.2.2 ∧ neg j = true) ∧
      Role c allowed T.nets (addK (glueG g1 g2 f0 κ) K) (A1 ∪ A2.image f0) q1.2.2 q := by
  classical
  obtain ⟨opsG, A, hG⟩ := S.atOrbit hq
  set G := Spec.shown opsG with hGdef
  rw [← pairsAt_eq hG.stored] at hp
  obtain ⟨⟨s1, s2⟩, a1, a2, a3, a4, a5, a6⟩ := Set.nonempty_of_ncard_ne_zero hp.ne'
  dsimp only at a1 a2 a3 a4 a5 a6
  have hinter : ∀ x, x ∈ s1 → x ∈ s2 → x = q.2.2 := by
    intro x k1 k2
    have : (s1 ∩ s2).card = 1 := by rw [a4]; omega
    obtain ⟨y, hy⟩ := Finset.card_eq_one.1 this
    have b1 : x ∈ s1 ∩ s2 := Finset.mem_inter.2 ⟨k1, k2⟩
    have b2 : q.2.2 ∈ s1 ∩ s2 := Finset.mem_inter.2 ⟨a1, a2⟩
    rw [hy, Finset.mem_singleton] at b1 b2
    rw [b1, b2]
  obtain ⟨o1, st1, e0, e1, he, heo⟩ := a5
  obtain ⟨o2, st2, d0, d1, hd, hdo⟩ := a6
  rw [h1.shown_eq st1] at he
  rw [h2.shown_eq st2] at hd
  obtain ⟨a, hav, hA1⟩ : ∃ a, a ≠ q1.2.2 ∧ A1 = {q1.2.2, a} := by
    have : (A1.erase q1.2.2).card = 1 := by rw [Finset.card_erase_of_mem h1.rep, h1.card, hc1]
    obtain ⟨a, ha⟩ := Finset.card_eq_one.1 this
    have ha' : a ∈ A1.erase q1.2.2 := by rw [ha]; exact Finset.mem_singleton_self _
    exact ⟨a, (Finset.mem_erase.1 ha').1, by rw [← Finset.insert_erase h1.rep, ha]⟩
  obtain ⟨ls, hlsn, hls⟩ : ∃ ls : List α, ls.Nodup ∧ ∀ x, g2.layer x ↔ x ∈ ls := by
    obtain ⟨ls, -, -, hls⟩ := h2.layer
    exact ⟨ls.dedup, ls.nodup_dedup, fun x => (hls x).trans List.mem_dedup.symm⟩
  obtain ⟨lG, -, -, hlG⟩ := hG.layer
  let AG : Finset α := lG.toFinset.filter fun x => g1.link (e1 x) q1.2.2 a
  have mAG : ∀ x, x ∈ AG ↔ G.layer x ∧ g1.link (e1 x) q1.2.2 a := by
    intro x
    simp only [AG, Finset.mem_filter, List.mem_toFinset, hlG]
  have le : ∀ x, G.layer x → g2.layer (e1 x) := fun x hx => (hl _).1 (he.layers.mapsTo hx)
  have ld : ∀ x, G.layer x → g2.layer (d1 x) := fun x hx => hd.layers.mapsTo hx
  have mA : ∀ y, y ∈ AG.image e1 ↔ g1.link y q1.2.2 a := by
    intro y
    rw [Finset.mem_image]
    constructor
    · rintro ⟨x, hx, rfl⟩; exact ((mAG x).1 hx).2
    · intro h
      obtain ⟨x, hx, rfl⟩ := he.layers.surjOn (h1.is.link_node h).1
      exact ⟨x, (mAG x).2 ⟨hx, h⟩, rfl⟩
  have mB : ∀ x, G.layer x → (d1 x ∈ AG.image d1 ↔ x ∈ AG) := by
    intro x hx
    rw [Finset.mem_image]
    constructor
    · rintro ⟨y, hy, e⟩
      rw [← hd.layers.injOn ((mAG y).1 hy).1 hx e]; exact hy
    · exact fun h => ⟨x, h, rfl⟩
  have hkey : ∃ κ κ' p', (∀ l, g2.layer l → (l ∈ AG.image d1 ↔ κ l ∈ AG.image e1)) ∧
      Set.BijOn κ {x | g2.layer x} {x | g2.layer x} ∧ Set.BijOn κ' {x | g2.layer x} {x | g2.layer x} ∧ p' ∈ combs ∧
      Is layers c p' (glueG g1 g2 f0 κ') ∧
      ∃ φ π, MIso (cplRel c) (Spec.mayChange 1 allowed) (glueG g1 g2 f0 κ) (glueG g1 g2 f0 κ') φ π ∧ ∀ x ∈ A1, φ x = x := by
    by_cases hAB : AG.image e1 = AG.image d1
    · obtain ⟨p0, hp0, hI0⟩ := hid
      exact ⟨id, id, p0, fun l _ => by rw [hAB]; rfl, Set.bijOn_id _, Set.bijOn_id _, hp0, hI0, id, id, MIso.refl, fun _ _ => rfl⟩
    · obtain ⟨perm, hperm, hwalk⟩ := exists_cycle (A := AG.image e1) (B := AG.image d1) hlsn
        (fun x hx => by
          obtain ⟨y, hy, rfl⟩ := Finset.mem_image.1 hx
          exact (hls _).1 (le y ((mAG y).1 hy).1))
        (fun x hx => by
          obtain ⟨y, hy, rfl⟩ := Finset.mem_image.1 hx
          exact (hls _).1 (ld y ((mAG y).1 hy).1))
        (by
          rw [Finset.card_image_of_injOn (fun x hx y hy e => he.layers.injOn ((mAG x).1 hx).1 ((mAG y).1 hy).1 e),
            Finset.card_image_of_injOn (fun x hx y hy e => hd.layers.injOn ((mAG x).1 hx).1 ((mAG y).1 hy).1 e)]) hAB
      have hpm : ∀ x, x ∈ perm ↔ g2.layer x := fun x => hperm.mem_iff.trans (hls x).symm
      obtain ⟨κ, κ', p', b1, b2, b3, b4, b5, F0, F1, hF⟩ := hcomb perm (hperm.nodup_iff.2 hlsn) hpm
      refine ⟨κ, κ', p', fun l hl' => ?_, b2, b3, b4, b5, glue_keep S hI hco hm1 h1 h2 hl hc1 hc2 hr b2 b3 hF⟩
      obtain ⟨k, hk⟩ := List.getElem?_of_mem (List.mem_rotate.2 ((hpm l).2 hl') : l ∈ perm.rotate (perm.length - 1))
      have hkl : k < perm.length := by
        obtain ⟨h, -⟩ := List.getElem?_eq_some_iff.1 hk
        rwa [List.length_rotate] at h
      have hk' : perm[k]? = some perm[k] := List.getElem?_eq_getElem hkl
      rw [b1 k l _ hk hk']
      exact hwalk.shift hk hk'
  obtain ⟨κ, κ', p', hAB, b2, b3, b4, b5, φ, π, hφ, hφA⟩ := hkey
  have hset : {x | g1.layer x} = {x | g2.layer x} := Set.ext hl
  have c2 : Set.BijOn κ {x | g2.layer x} {x | g1.layer x} := by rw [hset]; exact b2
  have c3 : Set.BijOn κ' {x | g2.layer x} {x | g1.layer x} := by rw [hset]; exact b3
  have k1 : ∀ x i j, i ∈ s1 → j ∈ s1 → G.layer x → (G.link x i j ↔ g1.link (κ (d1 x)) (e0 i) (e0 j)) := by
    intro x i j hi hj hx
    refine (he.links x i j hx hi hj).trans ?_
    have hiff : g1.link (e1 x) q1.2.2 a ↔ g1.link (κ (d1 x)) q1.2.2 a := by
      rw [← mA (κ (d1 x)), ← hAB _ (ld x hx), mB x hx, mAG]
      exact ⟨fun h => ⟨hx, h⟩, fun h => h.2⟩
    have hmem : ∀ i, i ∈ s1 → e0 i = q1.2.2 ∨ e0 i = a := by
      intro i hi
      have : e0 i ∈ A1 := (h1.mem _).2 (he.nodes.mapsTo hi)
      rw [hA1] at this
      simpa using this
    have hsym : ∀ l i j, g1.link l i j ↔ g1.link l j i := fun l i j => ⟨fun h => (h1.is.link_node h).2.2.2.2, fun h => (h1.is.link_node h).2.2.2.2⟩
    have hself : ∀ l i, ¬ g1.link l i i := fun l i h => (h1.is.link_node h).2.2.2.1 rfl
    rcases hmem i hi with ei | ei <;> rcases hmem j hj with ej | ej <;> rw [ei, ej]
    · exact iff_of_false (hself _ _) (hself _ _)
    · exact hiff
    · rw [hsym, hsym (κ (d1 x))]; exact hiff
    · exact iff_of_false (hself _ _) (hself _ _)
  obtain ⟨K, hK, ψ, hψ, ψo⟩ := glue_iso S hI h1 h2 hG a1 a2 a3 hinter he heo hd hdo c2 (fun h => absurd hm1 h)
    (fun x y hx hy => cplRel_alike hco ⟨fun e => by rw [e], fun e => hd.layers.injOn hx hy (b2.injOn (ld x hx) (ld y hy) e)⟩) k1 hr
  have sh := (glue_shape hI h1 h2 hr (f1 := κ) c2.mapsTo).1
  have sh' := (glue_shape hI h1 h2 hr (f1 := κ') c3.mapsTo).1
  have hadd := addK_iso hφ (K := K) fun x i j h => ⟨(sh.layer x).2 (hK x i j h).1, (sh.node i).1 (hK x i j h).2.1.1, (sh.node j).1 (hK x i j h).2.2.1⟩
  have hvA : q1.2.2 ∈ A1 := h1.rep
  have hsub1 : ∀ z ∈ A1, z ∈ A1 ∪ A2.image f0 := fun z hz => Finset.mem_union_left _ hz
  have hnonneg : ∀ z, z ∈ A1 ∪ A2.image f0 → neg z = false → z ∈ A1 := by
    intro z hz hn
    rcases Finset.mem_union.1 hz with h | h
    · exact h
    · obtain ⟨y, hy, rfl⟩ := Finset.mem_image.1 h
      by_cases hyo : y = q2.2.2
      · rw [hyo, hr.rep]; exact hvA
      · rw [hr.other y ((h2.mem y).1 hy) hyo] at hn; cases hn
  have hK' : ∀ y i j, (∃ x a b, K x a b ∧ y = π x ∧ i = φ a ∧ j = φ b) → g1.layer y ∧ (i ∈ A1 ∪ A2.image f0 ∧ i ≠ q1.2.2 ∧ neg i = false) ∧
        j ∈ A1 ∪ A2.image f0 ∧ j ≠ q1.2.2 ∧ neg j = true := by
    rintro y i j ⟨x, a', b', hk, rfl, rfl, rfl⟩
    obtain ⟨f1, ⟨f2, f3, f4⟩, f5, f6, f7⟩ := hK x a' b' hk
    rw [hφA a' (hnonneg a' f2 f4)]
    have hb : φ b' ∈ A1 ∪ A2.image f0 := (sh'.node _).2 (hφ.nodes.mapsTo ((sh.node _).1 f5))
    have hbA : φ b' ∉ A1 := by
      intro h
      have := hφ.nodes.injOn ((sh.node _).1 (hsub1 _ h)) ((sh.node _).1 f5) (hφA _ h)
      rw [this] at h
      rw [h1.nonneg hI ((h1.mem _).1 h)] at f7; cases f7
    refine ⟨(sh'.layer _).1 (hφ.layers.mapsTo ((sh.layer _).2 f1)), ⟨f2, f3, f4⟩, hb, fun e => hbA (e ▸ hvA), ?_⟩
    cases hn : neg (φ b')
    · exact absurd (hnonneg _ hb hn) hbA
    · rfl
  refine ⟨κ', p', b4, b3, b5, _, hK', hG.role (sh'.add fun x i j h => ⟨(hK' x i j h).1, (hK' x i j h).2.1.1, (hK' x i j h).2.2.1⟩) (hψ.trans hadd) ?_⟩
  simp only [Function.comp]
  rw [ψo, hφA _ hvA]

/-- Two graphlets of three nodes that share a second node, in a graphlet of four nodes. -/
theorem merge_complete (S : Setup canon str match? allowed c idx layers nl N ord T ol) (hI : IntName int neg idx)
    (hfix : 1 ∉ Spec.mayChange 1 allowed ∨ layers.length ≤ 1) (hq : q ∈ ol)
    (h1 : AtOrbit T c idx layers nl N q1 p1 g1 A1) (h2 : AtOrbit T c idx layers nl N q2 p2 g2 A2) (hc1 : q1.1 = 3) (hc2 : q2.1 = 3) (hc : q.1 = 4)
    (hp : 0 < pairsAt c allowed T.nets q1 q2 q) {f0 : α → α} (hr : RenamesTo neg g2 q1.2.2 q2.2.2 f0) (hΓ : Is layers c p (glueG g1 g2 f0 id)) :
    ∃ (a b x y w y1 y2 : α) (R : α → Prop) (opsG : List (POp α W)), FiveG (glueG g1 g2 f0 id) q1.2.2 a b x y ∧
      (neg a = false ∧ neg b = false ∧ neg x = true ∧ neg y = true) ∧
      (∀ l, (glueG g1 g2 f0 id).link l q1.2.2 a ↔ (glueG g1 g2 f0 id).link l q1.2.2 x) ∧ (∀ l, R l → (glueG g1 g2 f0 id).layer l) ∧
      Stored T.nets q.1 q.2.1 (afterP [c] false 0 true opsG) ∧
      FourG (glueG g1 g2 f0 id).layer (Spec.shown opsG) q.2.2 w y1 y2 (fun l => (glueG g1 g2 f0 id).link l q1.2.2 a)
        (fun l => (glueG g1 g2 f0 id).link l q1.2.2 b) (fun l => (glueG g1 g2 f0 id).link l q1.2.2 y) (fun l => (glueG g1 g2 f0 id).link l a b)
        (fun l => (glueG g1 g2 f0 id).link l x y) R := by
  classical
  obtain ⟨opsG, A, hG⟩ := S.atOrbit hq
  set G := Spec.shown opsG with hGdef
  rw [← pairsAt_eq hG.stored] at hp
  obtain ⟨⟨s1, s2⟩, a1, a2, a3, a4, a5, a6⟩ := Set.nonempty_of_ncard_ne_zero hp.ne'
  dsimp only at a1 a2 a3 a4 a5 a6
  have hs1 : ∀ x ∈ s1, G.node x := fun x hx => (a3 x).2 (Or.inl hx)
  have hs2 : ∀ x ∈ s2, G.node x := fun x hx => (a3 x).2 (Or.inr hx)
  have cd1 : s1.card = 3 := (S.role_set hs1 a5).1.trans hc1
  have cd2 : s2.card = 3 := (S.role_set hs2 a6).1.trans hc2
  have ci : (s1 ∩ s2).card = 2 := by rw [a4]; omega
  obtain ⟨w, hw, hwi⟩ : ∃ w, w ≠ q.2.2 ∧ s1 ∩ s2 = {q.2.2, w} := by
    have hm : q.2.2 ∈ s1 ∩ s2 := Finset.mem_inter.2 ⟨a1, a2⟩
    have : ((s1 ∩ s2).erase q.2.2).card = 1 := by rw [Finset.card_erase_of_mem hm, ci]
    obtain ⟨w, hw⟩ := Finset.card_eq_one.1 this
    have hw' : w ∈ (s1 ∩ s2).erase q.2.2 := by rw [hw]; exact Finset.mem_singleton_self _
    refine ⟨w, (Finset.mem_erase.1 hw').1, ?_⟩
    rw [← Finset.insert_erase hm, hw]
  have third : ∀ s : Finset α, s.card = 3 → q.2.2 ∈ s → w ∈ s → ∃ y, y ≠ q.2.2 ∧ y ≠ w ∧ s = {q.2.2, w, y} := by
    intro s hs k1 k2
    have k3 : w ∈ s.erase q.2.2 := Finset.mem_erase.2 ⟨hw, k2⟩
    have : ((s.erase q.2.2).erase w).card = 1 := by rw [Finset.card_erase_of_mem k3, Finset.card_erase_of_mem k1, hs]
    obtain ⟨y, hy⟩ := Finset.card_eq_one.1 this
    have hy' : y ∈ (s.erase q.2.2).erase w := by rw [hy]; exact Finset.mem_singleton_self _
    refine ⟨y, (Finset.mem_erase.1 (Finset.mem_erase.1 hy').2).1, (Finset.mem_erase.1 hy').1, ?_⟩
    rw [← Finset.insert_erase k1, ← Finset.insert_erase k3, hy]
  have hwm : w ∈ s1 ∩ s2 := by rw [hwi]; simp
  have hw1 : w ∈ s1 := (Finset.mem_inter.1 hwm).1
  have hw2 : w ∈ s2 := (Finset.mem_inter.1 hwm).2
  obtain ⟨y1, y1v, y1w, hy1⟩ := third s1 cd1 a1 hw1
  obtain ⟨y2, y2v, y2w, hy2⟩ := third s2 cd2 a2 hw2
  have hy1s : y1 ∈ s1 := by rw [hy1]; simp
  have hy2s : y2 ∈ s2 := by rw [hy2]; simp
  have y12 : y1 ≠ y2 := by
    rintro rfl
    have : y1 ∈ s1 ∩ s2 := Finset.mem_inter.2 ⟨hy1s, hy2s⟩
    rw [hwi] at this
    simp only [Finset.mem_insert, Finset.mem_singleton] at this
    rcases this with h | h
    · exact y1v h
    · exact y1w h
  obtain ⟨o1, st1, e0, e1, he, heo⟩ := a5
  obtain ⟨o2, st2, d0, d1, hd, hdo⟩ := a6
  rw [h1.shown_eq st1] at he
  rw [h2.shown_eq st2] at hd
  have fe : ∀ x, G.layer x → e1 x = x := fun x hx => fix_layers hfix he (fun x hx => hG.is.lay hx) (fun x hx => h1.is.lay hx) hx
  have fd : ∀ x, G.layer x → d1 x = x := fun x hx => fix_layers hfix hd (fun x hx => hG.is.lay hx) (fun x hx => h2.is.lay hx) hx
  have L1 : ∀ x, G.layer x ↔ g1.layer x := by
    intro x
    constructor
    · intro hx
      have : g1.layer (e1 x) := he.layers.mapsTo hx
      rwa [fe x hx] at this
    · intro hx
      obtain ⟨y, hy, rfl⟩ := he.layers.surjOn hx
      rw [fe y hy]; exact hy
  have L2 : ∀ x, G.layer x ↔ g2.layer x := by
    intro x
    constructor
    · intro hx
      have : g2.layer (d1 x) := hd.layers.mapsTo hx
      rwa [fd x hx] at this
    · intro hx
      obtain ⟨y, hy, rfl⟩ := hd.layers.surjOn hx
      rw [fd y hy]; exact hy
  have k1 : ∀ x i j, i ∈ s1 → j ∈ s1 → (G.link x i j ↔ g1.link x (e0 i) (e0 j)) := by
    intro x i j hi hj
    by_cases hx : G.layer x
    · have := he.links x i j hx hi hj
      rwa [fe x hx] at this
    · exact ⟨fun k => absurd (hG.is.link_node k).1 hx, fun k => absurd ((L1 x).2 (h1.is.link_node k).1) hx⟩
  have k2 : ∀ x i j, i ∈ s2 → j ∈ s2 → (G.link x i j ↔ g2.link x (d0 i) (d0 j)) := by
    intro x i j hi hj
    by_cases hx : G.layer x
    · have := hd.links x i j hx hi hj
      rwa [fd x hx] at this
    · exact ⟨fun k => absurd (hG.is.link_node k).1 hx, fun k => absurd ((L2 x).2 (h2.is.link_node k).1) hx⟩
  obtain ⟨hsh, hnc⟩ := glue_shape hI h1 h2 hr (f1 := id) (fun x hx => (L1 x).1 ((L2 x).2 hx))
  set Γ := glueG g1 g2 f0 id with hΓdef
  set v := q1.2.2 with hv
  have n1 : ∀ x ∈ s1, g1.node (e0 x) := fun x hx => he.nodes.mapsTo hx
  have n2 : ∀ x ∈ s2, g2.node (d0 x) := fun x hx => hd.nodes.mapsTo hx
  have neg1 : ∀ x ∈ s1, neg (e0 x) = false := fun x hx => h1.nonneg hI (n1 x hx)
  have neg2 : ∀ x ∈ s2, x ≠ q.2.2 → neg (f0 (d0 x)) = true := by
    intro x hx hne
    refine hr.other _ (n2 x hx) fun e => hne ?_
    rw [← hdo] at e
    exact hd.nodes.injOn hx a2 e
  have inj1 : ∀ x y, x ∈ s1 → y ∈ s1 → x ≠ y → e0 x ≠ e0 y := fun x y hx hy k e => k (he.nodes.injOn hx hy e)
  have inj2 : ∀ x y, x ∈ s2 → y ∈ s2 → x ≠ y → f0 (d0 x) ≠ f0 (d0 y) :=
    fun x y hx hy k e => k (hd.nodes.injOn hx hy (hr.inj _ _ (n2 x hx) (n2 y hy) e))
  have ne12 : ∀ x y, x ∈ s1 → y ∈ s2 → y ≠ q.2.2 → e0 x ≠ f0 (d0 y) := by
    intro x y hx hy hne e
    have := neg1 x hx
    rw [e, neg2 y hy hne] at this; cases this
  have fo : f0 (d0 q.2.2) = v := by rw [hdo, hr.rep]
  -- links of the glued graph
  have l1 : ∀ l i j, i ∈ s1 → i ≠ q.2.2 → j ∈ s1 → (Γ.link l (e0 i) (e0 j) ↔ G.link l i j) := by
    intro l i j hi hiv hj
    rw [k1 l i j hi hj]
    constructor
    · have hren : ∀ u, ¬ (renG g2 f0 id).link l (e0 i) u ∧ ¬ (renG g2 f0 id).link l u (e0 i) := by
        have key : ∀ z, g2.node z → e0 i ≠ f0 z := by
          intro z hz
          obtain ⟨z', hz', rfl⟩ := hd.nodes.surjOn hz
          by_cases hzo : z' = q.2.2
          · rw [hzo, fo, ← heo]
            exact inj1 _ _ hi a1 hiv
          · exact ne12 i z' hi hz' hzo
        intro u
        constructor
        · rintro ⟨y, i', j', k, -, e, -⟩
          exact key _ (h2.is.link_node k).2.1 e
        · rintro ⟨y, i', j', k, -, -, e⟩
          exact key _ (h2.is.link_node k).2.2.1 e
      rintro (k | k | k)
      · exact k
      · exact absurd k (hren _).1
      · exact absurd k (hren _).2
    · exact fun k => Or.inl k
  have l2 : ∀ l i j, i ∈ s2 → i ≠ q.2.2 → j ∈ s2 → (Γ.link l (f0 (d0 i)) (f0 (d0 j)) ↔ G.link l i j) := by
    intro l i j hi hiv hj
    rw [k2 l i j hi hj]
    have hren : ∀ i j, i ∈ s2 → j ∈ s2 → (renG g2 f0 id).link l (f0 (d0 i)) (f0 (d0 j)) → g2.link l (d0 i) (d0 j) := by
      rintro i j hi hj ⟨y, i', j', k, e, e1, e2⟩
      simp only [id] at e
      subst e
      rw [hr.inj _ _ (n2 i hi) (h2.is.link_node k).2.1 e1, hr.inj _ _ (n2 j hj) (h2.is.link_node k).2.2.1 e2]
      exact k
    constructor
    · rintro (k | k | k)
      · have := h1.nonneg hI (h1.is.link_node k).2.1
        rw [neg2 i hi hiv] at this; cases this
      · exact hren i j hi hj k
      · exact (h2.is.link_node (hren j i hj hi k)).2.2.2.2
    · exact fun k => Or.inr (Or.inl ⟨l, _, _, k, rfl, rfl, rfl⟩)
  have gs : ∀ l i j, Γ.link l i j ↔ Γ.link l j i := fun l i j => ⟨fun k => (hΓ.link_node k).2.2.2.2, fun k => (hΓ.link_node k).2.2.2.2⟩
  have Gs : ∀ l i j, G.link l i j ↔ G.link l j i := fun l i j => ⟨fun k => (hG.is.link_node k).2.2.2.2, fun k => (hG.is.link_node k).2.2.2.2⟩
  have noc : ∀ l i j, i ∈ s1 → i ≠ q.2.2 → j ∈ s2 → j ≠ q.2.2 → ¬ Γ.link l (e0 i) (f0 (d0 j)) := by
    intro l i j hi hiv hj hjv k
    have := hnc l _ _ k (neg1 i hi) (neg2 j hj hjv)
    rw [← heo] at this
    exact inj1 _ _ hi a1 hiv this
  have lay : ∀ x, Γ.layer x ↔ G.layer x := fun x => (hsh.layer x).trans (L1 x).symm
  have five : FiveG Γ v (e0 w) (e0 y1) (f0 (d0 w)) (f0 (d0 y2)) := by
    refine ⟨fun z => ?_, ?_, fun l i j k => (gs l i j).1 k, fun l i k => (hΓ.link_node k).2.2.2.1 rfl,
      fun l i j k => ⟨(hΓ.link_node k).1, (hΓ.link_node k).2.1, (hΓ.link_node k).2.2.1⟩, fun l => ?_⟩
    · rw [← hsh.node z, Finset.mem_union]
      constructor
      · rintro (k | k)
        · obtain ⟨z', hz', rfl⟩ := he.nodes.surjOn ((h1.mem z).1 k)
          have hz2 : z' ∈ s1 := hz'
          rw [hy1] at hz2
          simp only [Finset.mem_insert, Finset.mem_singleton] at hz2
          rcases hz2 with rfl | rfl | rfl
          · exact Or.inl heo
          · exact Or.inr (Or.inl rfl)
          · exact Or.inr (Or.inr (Or.inl rfl))
        · obtain ⟨u, hu, rfl⟩ := Finset.mem_image.1 k
          obtain ⟨z', hz', rfl⟩ := hd.nodes.surjOn ((h2.mem u).1 hu)
          have hz2 : z' ∈ s2 := hz'
          rw [hy2] at hz2
          simp only [Finset.mem_insert, Finset.mem_singleton] at hz2
          rcases hz2 with rfl | rfl | rfl
          · exact Or.inl fo
          · exact Or.inr (Or.inr (Or.inr (Or.inl rfl)))
          · exact Or.inr (Or.inr (Or.inr (Or.inr rfl)))
      · rintro (rfl | rfl | rfl | rfl | rfl)
        · exact Or.inl h1.rep
        · exact Or.inl ((h1.mem _).2 (n1 w hw1))
        · exact Or.inl ((h1.mem _).2 (n1 y1 hy1s))
        · exact Or.inr (Finset.mem_image.2 ⟨_, (h2.mem _).2 (n2 w hw2), rfl⟩)
        · exact Or.inr (Finset.mem_image.2 ⟨_, (h2.mem _).2 (n2 y2 hy2s), rfl⟩)
    · rw [← heo]
      exact ⟨inj1 _ _ a1 hw1 hw.symm, inj1 _ _ a1 hy1s y1v.symm, ne12 _ _ a1 hw2 hw, ne12 _ _ a1 hy2s y2v, inj1 _ _ hw1 hy1s y1w.symm,
        ne12 _ _ hw1 hw2 hw, ne12 _ _ hw1 hy2s y2v, ne12 _ _ hy1s hw2 hw, ne12 _ _ hy1s hy2s y2v, inj2 _ _ hw2 hy2s y2w.symm⟩
    · exact ⟨noc l w w hw1 hw hw2 hw, noc l w y2 hw1 hw hy2s y2v, noc l y1 w hy1s y1v hw2 hw, noc l y1 y2 hy1s y1v hy2s y2v⟩
  have va : ∀ l, Γ.link l v (e0 w) ↔ G.link l q.2.2 w := by
    intro l
    rw [gs, Gs, ← heo]
    exact l1 l w q.2.2 hw1 hw a1
  have vb : ∀ l, Γ.link l v (e0 y1) ↔ G.link l q.2.2 y1 := by
    intro l
    rw [gs, Gs, ← heo]
    exact l1 l y1 q.2.2 hy1s y1v a1
  have vx : ∀ l, Γ.link l v (f0 (d0 w)) ↔ G.link l q.2.2 w := by
    intro l
    rw [gs, Gs, ← fo]
    exact l2 l w q.2.2 hw2 hw a2
  have vy : ∀ l, Γ.link l v (f0 (d0 y2)) ↔ G.link l q.2.2 y2 := by
    intro l
    rw [gs, Gs, ← fo]
    exact l2 l y2 q.2.2 hy2s y2v a2
  refine ⟨e0 w, e0 y1, f0 (d0 w), f0 (d0 y2), w, y1, y2, fun l => G.link l y1 y2, opsG, five,
    ⟨neg1 w hw1, neg1 y1 hy1s, neg2 w hw2 hw, neg2 y2 hy2s y2v⟩, fun l => (va l).trans (vx l).symm,
    fun l k => (lay l).2 (hG.is.link_node k).1, hG.stored, ?_⟩
  refine ⟨fun l => (lay l).symm, fun z => ?_, ⟨hw.symm, y1v.symm, y2v.symm, y1w.symm, y2w.symm, y12⟩, fun l i j k => (Gs l i j).1 k,
    fun l i k => (hG.is.link_node k).2.2.2.1 rfl, fun l => (va l).symm, fun l => (vb l).symm, fun l => (vy l).symm,
    fun l => (l1 l w y1 hw1 hw hy1s).symm, fun l => (l2 l w y2 hw2 hw hy2s).symm, fun l => Iff.rfl⟩
  rw [a3 z, hy1, hy2]
  simp only [Finset.mem_insert, Finset.mem_singleton]
  tauto

/-- the equation of two orbits -/
theorem orbitEquation_ok (S : Setup canon str match? allowed c idx layers nl N ord T ol) (hI : IntName int neg idx)
    (hq1 : q1 ∈ ol) (hq2 : q2 ∈ ol) (h3 : q1.1 ≤ 3) (hsz : q1.1 + q2.1 ≤ N + 1)
    (h1 : AtOrbit T c idx layers nl N q1 p1 g1 A1) (h2 : AtOrbit T c idx layers nl N q2 p2 g2 A2) (hl : ∀ x, g1.layer x ↔ g2.layer x) :
    ∃ eq, orbitEquation ⟨canon, str, match?, allowed⟩ T int neg ord q1 q2 =
        .ok (some (if q1 = q2 then [(q1, 2)] else [(q2, 1), (q1, 1)], eq)) ∧ (Dict.keys eq).Nodup ∧
      (∀ q x, Dict.get eq q = some x → q ∈ ol ∧ max q1.1 q2.1 < q.1 ∧ q.1 < q1.1 + q2.1 ∧ 0 < pairsAt c allowed T.nets q1 q2 q ∧
        x = (pairsAt c allowed T.nets q1 q2 q : ℚ) / (if q1 = q2 then 2 else 1)) ∧
      ((1 ∉ Spec.mayChange 1 allowed ∨ layers.length ≤ 1) → ∀ q ∈ ol, q.1 + 1 = q1.1 + q2.1 ∨ (q1.1 = 3 ∧ q2.1 = 3 ∧ q.1 = 4) → 0 < pairsAt c allowed T.nets q1 q2 q →
        (Dict.get eq q).isSome = true) ∧
      ((∀ w, c ≠ .ordinal w) → q1.1 = 2 → q2.1 ≤ 3 → ∀ q ∈ ol, q.1 + 1 = q1.1 + q2.1 → 0 < pairsAt c allowed T.nets q1 q2 q →
        (Dict.get eq q).isSome = true) := by
  set v := q1.2.2 with hv
  have hvn : neg v = false := h1.nonneg hI ((h1.mem _).1 h1.rep)
  obtain ⟨combs, f0, e1, hr, hc, ⟨pg, hpg, hpI⟩, hperm⟩ := combineOrbits_ok S hI h1 h2 hl
  have hl0 : ∃ x, g1.layer x := by
    obtain ⟨ops, -, -, hg⟩ := h1.is
    have hcn := h1.conn
    rw [← hg] at hcn ⊢
    exact (connected_layer hcn (by rw [h1.card]; exact h1.two)).2
  obtain ⟨nets, e2, hn, hK, hM⟩ := combNets_ok (match? := match?) S.ok S.iso S.ord hl0 hvn h3 h1.two h2.two hc
  have hcard : ∀ m ∈ nets, ∀ g s, Shape g1.layer v (q1.1 + q2.1) g s m.2 → max q1.1 q2.1 < s.card ∧ s.card < q1.1 + q2.1 ∧ 2 ≤ s.card ∧ s.card ≤ N := by
    intro m hm g s hs
    have k1 := (hn m hm).2
    have k2 := hs.card
    have k3 : 1 ≤ m.2.length := by rcases hs.both with h | h <;> rw [h] <;> simp
    have := h1.two
    omega
  obtain ⟨found, e3, f1, f2, f3⟩ : ∃ found, forE (findOrbit ⟨canon, str, match?, allowed⟩ T v) nets [] = .ok found ∧
      (Dict.keys found).Nodup ∧
      (∀ q m, Dict.get found q = some m → m ∈ nets ∧ q ∈ ol ∧ ∃ g s, Is layers c m.1 g ∧ Shape g1.layer v (q1.1 + q2.1) g s m.2 ∧
        Role c allowed T.nets g s v q) ∧
      ∀ m ∈ nets, ∀ g s, Is layers c m.1 g → Shape g1.layer v (q1.1 + q2.1) g s m.2 → ∀ q ∈ ol, Role c allowed T.nets g s v q →
        Dict.has found q = true := by
    refine forE_ok (P := fun pre (d : Dict (Orbit α) (MPlex α W × List α)) => (Dict.keys d).Nodup ∧
      (∀ q m, Dict.get d q = some m → m ∈ nets ∧ q ∈ ol ∧ ∃ g s, Is layers c m.1 g ∧ Shape g1.layer v (q1.1 + q2.1) g s m.2 ∧
        Role c allowed T.nets g s v q) ∧
      ∀ m ∈ pre, ∀ g s, Is layers c m.1 g → Shape g1.layer v (q1.1 + q2.1) g s m.2 → ∀ q ∈ ol, Role c allowed T.nets g s v q →
        Dict.has d q = true) (s := ([] : Dict (Orbit α) (MPlex α W × List α))) nets
        ⟨List.nodup_nil, fun q m h => (nomatch h), fun m hm => (nomatch hm)⟩ ?_
    intro pre m post d hsplit ⟨k1, k2, k3⟩
    have hm : m ∈ nets := by rw [hsplit]; simp
    obtain ⟨⟨g, s, b1, b2⟩, -⟩ := hn m hm
    obtain ⟨c1, c2, c3, c4⟩ := hcard m hm g s b2
    have step := fun g s (b1 : Is layers c m.1 g) (b2 : Shape g1.layer v (q1.1 + q2.1) g s m.2) =>
      findOrbit_ok S h1.layer b1 b2 (hcard m hm g s b2).2.2.1 (hcard m hm g s b2).2.2.2
    obtain ⟨q', hq', r1, r2, r3⟩ := step g s b1 b2
    refine ⟨_, r3 d, ?_⟩
    have hall : ∀ g' s', Is layers c m.1 g' → Shape g1.layer v (q1.1 + q2.1) g' s' m.2 → ∀ q ∈ ol, Role c allowed T.nets g' s' v q → q = q' := by
      intro g' s' b1' b2' q hq hrole
      obtain ⟨ops, e, -, rfl⟩ := b1
      obtain ⟨ops2, e2, -, rfl⟩ := b1'
      rw [e] at e2
      rw [← shown_congr e2] at hrole b2'
      obtain rfl : s' = s := by ext x; rw [b2'.node, b2.node]
      exact r2 q hq hrole
    by_cases hh : Dict.has d q' = true
    · rw [if_pos hh]
      refine ⟨k1, k2, fun m' hm' g' s' b1' b2' q hq hrole => ?_⟩
      rcases List.mem_append.1 hm' with h | h
      · exact k3 m' h g' s' b1' b2' q hq hrole
      · obtain rfl := List.mem_singleton.1 h
        rw [hall g' s' b1' b2' q hq hrole]; exact hh
    · rw [if_neg hh]
      refine ⟨Dict.nodup_keys_set k1 _ _, fun q m' hg => ?_, fun m' hm' g' s' b1' b2' q hq hrole => ?_⟩
      · rw [Dict.get_set] at hg
        split at hg
        · rename_i e
          cases hg
          exact ⟨hm, e ▸ hq', g, s, b1, b2, e ▸ r1⟩
        · exact k2 q m' hg
      · unfold Dict.has
        rw [Dict.get_set]
        split
        · rfl
        · rename_i hne
          rcases List.mem_append.1 hm' with h | h
          · exact k3 m' h g' s' b1' b2' q hq hrole
          · obtain rfl := List.mem_singleton.1 h
            exact absurd (hall g' s' b1' b2' q hq hrole).symm hne
  let val : Orbit α → ℚ := fun q => (pairsAt c allowed T.nets q1 q2 q : ℚ) / (if q1 = q2 then 2 else 1)
  have hval : ∀ q, 0 < val q ↔ 0 < pairsAt c allowed T.nets q1 q2 q := by
    intro q
    simp only [val]
    split
    · rw [div_pos_iff_of_pos_right (by norm_num)]; exact Nat.cast_pos
    · rw [div_one]; exact Nat.cast_pos
  obtain ⟨eq, e4, f5, f4⟩ : ∃ eq, forE (addTerm ⟨canon, str, match?, allowed⟩ T ord q1 q2) found [] = .ok eq ∧
      (Dict.keys eq).Nodup ∧ ∀ q x, Dict.get eq q = some x ↔ (∃ m, (q, m) ∈ found) ∧ x = val q ∧ 0 < val q := by
    refine forE_ok (P := fun pre (eq : Dict (Orbit α) ℚ) => (Dict.keys eq).Nodup ∧ ∀ q x, Dict.get eq q = some x ↔ (∃ m, (q, m) ∈ pre) ∧ x = val q ∧ 0 < val q)
      (s := ([] : Dict (Orbit α) ℚ)) found ⟨List.nodup_nil, by simp⟩ ?_
    rintro pre ⟨q, m⟩ post eq hsplit ⟨hnd, hP⟩
    have hmem : (q, m) ∈ found := by rw [hsplit]; simp
    obtain ⟨b1, b2, g, s, b3, b4, b5⟩ := f2 q m (Dict.get_of_mem f1 hmem)
    unfold addTerm
    rw [show coefficient ⟨canon, str, match?, allowed⟩ T ord q1.2.2 (q, m).2.2 q1 q2 (q, m).2.1 = _ from
      coefficient_comb S hq1 hq2 b3 b4 b5 h1.two]
    simp only
    change ∃ s', (if 0 < val q then _ else _) = _ ∧ _
    have hex : ∀ q', (∃ m', (q', m') ∈ pre ++ [(q, m)]) ↔ (∃ m', (q', m') ∈ pre) ∨ q' = q := by
      intro q'
      simp only [List.mem_append, List.mem_singleton, Prod.mk.injEq, exists_or]
      refine or_congr Iff.rfl ⟨fun ⟨_, h, _⟩ => h, fun h => ⟨m, h, rfl⟩⟩
    by_cases hpos : 0 < val q
    · rw [if_pos hpos]
      refine ⟨_, rfl, Dict.nodup_keys_set hnd _ _, fun q' x => ?_⟩
      rw [Dict.get_set, hex]
      split
      · rename_i e
        subst e
        constructor
        · intro h
          exact ⟨Or.inr rfl, (Option.some.inj h).symm, hpos⟩
        · rintro ⟨-, rfl, -⟩; rfl
      · rename_i hne
        rw [hP]
        constructor
        · rintro ⟨h, h'⟩; exact ⟨Or.inl h, h'⟩
        · rintro ⟨h | h, h'⟩
          · exact ⟨h, h'⟩
          · exact absurd h.symm hne
    · rw [if_neg hpos]
      refine ⟨_, rfl, hnd, fun q' x => ?_⟩
      rw [hex, hP]
      constructor
      · rintro ⟨h, h'⟩; exact ⟨Or.inl h, h'⟩
      · rintro ⟨h | rfl, h'⟩
        · exact ⟨h, h'⟩
        · exact absurd h'.2 hpos
  have hfound : ∀ q, 0 < pairsAt c allowed T.nets q1 q2 q → Dict.has found q = true → (Dict.get eq q).isSome = true := by
    intro q hpos hhas
    obtain ⟨m, hm⟩ := Option.isSome_iff_exists.1 hhas
    rw [(f4 q (val q)).2 ⟨⟨m, Dict.mem_of_get hm⟩, rfl, (hval q).2 hpos⟩]
    rfl
  have hadded : ∀ q ∈ ol, ∀ κ : α → α, (∀ x, g2.layer x → g1.layer (κ x)) → ∀ pk ∈ combs, Is layers c pk (glueG g1 g2 f0 κ) → ∀ K : α → α → α → Prop,
      (∀ x i j, K x i j → g1.layer x ∧ (i ∈ A1 ∪ A2.image f0 ∧ i ≠ q1.2.2 ∧ neg i = false) ∧
        j ∈ A1 ∪ A2.image f0 ∧ j ≠ q1.2.2 ∧ neg j = true) →
      Role c allowed T.nets (addK (glueG g1 g2 f0 κ) K) (A1 ∪ A2.image f0) q1.2.2 q → Dict.has found q = true := by
    intro q hq κ hκ pk hpk hpkI K hKc hrole
    have hshκ := (glue_shape hI h1 h2 hr (f1 := κ) hκ).1
    have hsh' := hshκ.add (K := K) (fun x i j h => ⟨(hKc x i j h).1, (hKc x i j h).2.1.1, (hKc x i j h).2.2.1⟩)
    obtain ⟨k1, k2⟩ := hK pk hpk
    by_cases hne : ∃ x i j, K x i j
    · obtain ⟨m, hm, hm2, hmI⟩ := k2 _ _ hpkI hshκ K hKc hne
      exact f3 m hm _ _ hmI (hm2 ▸ hsh') q hq hrole
    · have : addK (glueG g1 g2 f0 κ) K = glueG g1 g2 f0 κ := by
        rw [addK_congr (L := fun _ _ _ => False), addK_false]
        intro x i j
        exact ⟨fun h => hne ⟨x, i, j, h⟩, fun h => h.elim⟩
      rw [this] at hrole
      exact f3 (pk, [v]) k1 _ _ hpkI hshκ q hq hrole
  have hfixed : (1 ∉ Spec.mayChange 1 allowed ∨ layers.length ≤ 1) → ∀ q ∈ ol, q.1 + 1 = q1.1 + q2.1 → 0 < pairsAt c allowed T.nets q1 q2 q →
      (Dict.get eq q).isSome = true := by
    intro hfix q hq hqc hpos
    obtain ⟨-, hcomp⟩ := glue_complete S hI hfix hq1 hq2 hq h1 h2 hqc hpos
    obtain ⟨K, hKc, hrole⟩ := hcomp f0 hr
    exact hfound q hpos (hadded q hq id (fun x hx => (hl x).2 hx) pg hpg hpI K hKc hrole)
  refine ⟨eq, ?_, f5, fun q x hg => ?_, fun hfix q hq hqc hpos => ?_, fun hco z1 z2 q hq hqc hpos => ?_⟩
  · unfold orbitEquation
    rw [e1]
    simp only
    rw [← hv, e2]
    simp only
    rw [e3]
    simp only
    rw [e4]
  · obtain ⟨⟨m, hm⟩, rfl, hpos⟩ := (f4 q x).1 hg
    obtain ⟨b1, b2, g, s, b3, b4, b5⟩ := f2 q m (Dict.get_of_mem f1 hm)
    obtain ⟨c1, c2, -, -⟩ := hcard m b1 g s b4
    have := (S.role_set (fun x hx => (b4.node x).1 hx) b5).1
    exact ⟨b2, by omega, by omega, (hval q).1 hpos, rfl⟩
  · obtain ⟨hsh, hnc⟩ := glue_shape hI h1 h2 hr (f1 := id) (fun x hx => (hl x).2 hx)
    rcases hqc with hqc | ⟨c1, c2, c3⟩
    · exact hfixed hfix q hq hqc hpos
    · refine hfound q hpos ?_
      obtain ⟨a, b, x, y, w, y1, y2, R, opsG, five, ⟨na, nb, nx, ny⟩, hm, hR, hst, four⟩ :=
        merge_complete S hI hfix hq h1 h2 c1 c2 c3 hpos hr hpI
      set Γ := glueG g1 g2 f0 id with hΓdef
      obtain ⟨u1, u2, u3, u4, u5, u6, u7, u8, u9, u10⟩ := five.ne
      have hmp : MergePair neg v Γ a x := ⟨⟨(five.node a).2 (by simp), u1.symm, na⟩, ⟨(five.node x).2 (by simp), u3.symm, nx⟩, hm⟩
      obtain ⟨a', x', ⟨⟨ma, mav, man⟩, ⟨mx, mxv, mxn⟩, hm'⟩, hsh2, ⟨i0, i1, hi⟩, hm0, hmK⟩ := hM (by omega) pg hpg Γ _ hpI hsh hnc a x hmp
      have ha' : a' = a ∨ a' = b := by
        rcases (five.node a').1 ma with k | k | k | k | k
        · exact absurd k mav
        · exact Or.inl k
        · exact Or.inr k
        · rw [k, nx] at man; cases man
        · rw [k, ny] at man; cases man
      have hx' : x' = x ∨ x' = y := by
        rcases (five.node x').1 mx with k | k | k | k | k
        · exact absurd k mxv
        · rw [k, na] at mxn; cases mxn
        · rw [k, nb] at mxn; cases mxn
        · exact Or.inl k
        · exact Or.inr k
      have hΓl : ∀ l, Γ.layer l ↔ g1.layer l := hsh.layer
      have hmerged : ∀ a x l, (mergeG Γ a x).layer l → l ∈ layers := by
        rintro a x l (k | ⟨i, j, -, -, k⟩)
        · exact hpI.lay k
        · exact hpI.lay (hpI.link_node k).1
      have hf1 : ∀ l, Γ.layer l → i1 l = l := fun l k =>
        fix_layers hfix hi (fun l k => hmerged _ _ l k) (fun l k => hmerged _ _ l k) (Or.inl k)
      obtain ⟨b', y', hb', hba, hy', hyx, four'⟩ := five.other hm ha' hx' hm' hi hf1 hR
      obtain ⟨φ, hφ, hφv⟩ := four'.iso four (cpl := cplRel c) (al := Spec.mayChange 1 allowed) S.nodes
      have hbn : Γ.node b' ∧ b' ≠ v ∧ neg b' = false := by
        rcases hb' with rfl | rfl
        · exact ⟨(five.node _).2 (by simp), u1.symm, na⟩
        · exact ⟨(five.node _).2 (by simp), u2.symm, nb⟩
      have hyn : Γ.node y' ∧ y' ≠ v ∧ neg y' = true := by
        rcases hy' with rfl | rfl
        · exact ⟨(five.node _).2 (by simp), u3.symm, nx⟩
        · exact ⟨(five.node _).2 (by simp), u4.symm, ny⟩
      have hbx : b' ≠ x' := by rintro rfl; rw [hbn.2.2] at mxn; cases mxn
      have hya : y' ≠ a' := by rintro rfl; rw [hyn.2.2] at man; cases man
      let K : α → α → α → Prop := fun l i j => R l ∧ i = b' ∧ j = y'
      have hKc : ∀ l i j, K l i j → g1.layer l ∧ (i ∈ (A1 ∪ A2.image f0) \ {x'} ∧ i ∉ [v, a'] ∧ neg i = false) ∧
          j ∈ (A1 ∪ A2.image f0) \ {x'} ∧ j ∉ [v, a'] ∧ neg j = true := by
        rintro l i j ⟨k, rfl, rfl⟩
        refine ⟨(hΓl l).1 (hR l k), ⟨?_, ?_, hbn.2.2⟩, ?_, ?_, hyn.2.2⟩
        · exact Finset.mem_sdiff.2 ⟨(hsh.node _).2 hbn.1, by rw [Finset.mem_singleton]; exact hbx⟩
        · simp only [List.mem_cons, List.not_mem_nil, or_false, not_or]
          exact ⟨hbn.2.1, hba⟩
        · exact Finset.mem_sdiff.2 ⟨(hsh.node _).2 hyn.1, by rw [Finset.mem_singleton]; exact hyx⟩
        · simp only [List.mem_cons, List.not_mem_nil, or_false, not_or]
          exact ⟨hyn.2.1, hya⟩
      have hsh3 := hsh2.add (K := K) (fun l i j h => ⟨(hKc l i j h).1, (hKc l i j h).2.1.1, (hKc l i j h).2.2.1⟩)
      have hrole : Role c allowed T.nets (addK (mergeG Γ a' x') K) ((A1 ∪ A2.image f0) \ {x'}) v q :=
        ⟨opsG, hst, φ, id, hφ.congr_source (fun z => (hsh3.node z).symm) (fun _ => Iff.rfl) fun l i j _ _ _ => Iff.rfl, hφv⟩
      by_cases hne : ∃ l, R l
      · obtain ⟨l, hl'⟩ := hne
        obtain ⟨m, hm1, hm2, hmI⟩ := hmK K hKc ⟨l, b', y', hl', rfl, rfl⟩
        exact f3 m hm1 _ _ hmI (hm2 ▸ hsh3) q hq hrole
      · have : addK (mergeG Γ a' x') K = mergeG Γ a' x' := by
          rw [addK_congr (L := fun _ _ _ => False), addK_false]
          intro l i j
          exact ⟨fun h => hne ⟨l, h.1⟩, fun h => h.elim⟩
        rw [this] at hrole
        obtain ⟨m, hm1, hm2, hmI⟩ := hm0
        exact f3 m hm1 _ _ hmI (hm2 ▸ hsh2) q hq hrole
  · by_cases hm1 : 1 ∈ Spec.mayChange 1 allowed
    · have hal : allowed ≠ some [0] := by rintro rfl; simp [Spec.mayChange] at hm1
      obtain ⟨κ, pk, hpk, hκ, hpkI, K, hKc, hrole⟩ := glue_complete_perm S hI hco hm1 hq h1 h2 hl z1 z2 hqc hpos hr ⟨pg, hpg, hpI⟩ (hperm hal)
      exact hfound q hpos (hadded q hq κ (fun x hx => (hl _).2 (hκ.mapsTo hx)) pk hpk hpkI K hKc hrole)
    · exact hfixed (Or.inl hm1) q hq hqc hpos

theorem orbitEquation_none (h1 : AtOrbit T c idx layers nl N q1 p1 g1 A1) (h2 : AtOrbit T c idx layers nl N q2 p2 g2 A2)
    (hl : ¬ ∀ x, g1.layer x ↔ g2.layer x) : orbitEquation ⟨canon, str, match?, allowed⟩ T int neg ord q1 q2 = .ok none := by
  unfold orbitEquation
  rw [combineOrbits_none h1 h2 hl]

end Pymnet
