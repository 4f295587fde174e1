import Verif.Props.Commute
import Verif.Props.LawsPlex
import Verif.Props.TransformsPlex
import Verif.Props.IntraDict

/-! C161 and C162 for multiplex networks. -/

set_option linter.unusedSectionVars false

namespace Pymnet

open Py MPlex

variable {α W : Type} [DecidableEq α] [DecidableEq W]

/-- Internal: a list of the layers of a multiplex network. -/
theorem exists_layers [Zero W] {cs : List (Coupling α W)} (hcs : cs ≠ []) (dir : Bool) (z : W) (al : Bool) (ops : List (POp α W)) :
    ∃ L : List (List α), L.Nodup ∧ ∀ s, s ∈ L ↔ Spec.HasLayer cs.length al ops (.ofList s) := by
  obtain ⟨h1, h2, -⟩ := C163_keys hcs dir z al ops
  have ht : ∀ s : List α, (LKey.ofList s).toList = s := by
    intro s
    rcases s with _ | ⟨x, _ | ⟨y, t⟩⟩ <;> rfl
  have hof : ∀ L, L ∈ (afterP cs dir z al ops).keysA → LKey.ofList L.toList = L := by
    intro L hL
    obtain ⟨s, rfl, -⟩ := (h2 L).1 hL
    rw [ht]
  refine ⟨(afterP cs dir z al ops).keysA.map LKey.toList, ?_, fun s => ?_⟩
  · refine List.Nodup.map_on (fun a ha b hb e => ?_) h1
    rw [← hof a ha, ← hof b hb, e]
  · rw [List.mem_map, ← h2]
    constructor
    · rintro ⟨L, hL, rfl⟩; rwa [hof L hL]
    · intro hL; exact ⟨_, hL, ht s⟩

variable [AddCommMonoid W] [LawfulIntNames α] {cs : List (Coupling α W)} {al : Bool} {ops : List (POp α W)}

/-- **C161, multiplex networks.** For every multiplex network with missing value 0 and categorical or ordinal couplings that is node-aligned,
or has one aspect with categorical couplings and every node on a layer, and without self-links written through an intra-layer network:
selecting nodes and aggregating over all aspects is, in both orders, the same up to `==`. -/
theorem C161_multiplex_partial (dir : Bool) (hU : Spec.Usable cs al ops) (hs : Spec.NoIntraSelf ops)
    (hal : al = true ∨ ∃ w, cs = [.categorical w])
    (hlay : al = true ∨ ∀ x, Spec.Happened (Spec.NamesNodeP cs.length al x) ops → ∃ s, Spec.HasNodeLayer cs.length al ops (x :: s))
    (nodes : Option (List α)) :
    ∃ p1 m12 m2 m21, (afterP cs dir 0 al ops).subnet (nodes :: List.replicate cs.length none) false = .ok p1 ∧
      p1.view.aggregate (List.range' 1 cs.length) false = .ok m12 ∧
      (afterP cs dir 0 al ops).view.aggregate (List.range' 1 cs.length) false = .ok m2 ∧ m2.subnet [nodes] false = .ok m21 ∧
      m12.eq m21 = .ok true ∧ m21.eq m12 = .ok true := by
  classical
  have hcs := hU.some_aspect
  have hnet : ∀ c, .net c ∉ cs := by
    intro c hc
    obtain ⟨w, -, h | h⟩ := hU.kind _ hc <;> cases h
  have hnone : ∀ (a : Nat) l, (nodes :: List.replicate cs.length none)[a + 1]? = some (some l) → False := by
    intro a l h
    simp [List.getElem?_replicate] at h
  obtain ⟨ops1, e1, l1⟩ := C84_subnet (dir := dir) (z := 0) (ops := ops) (al := al) hcs hnet (sel := nodes :: List.replicate cs.length none)
    (by simp) false (Or.inr fun s h => asked_hasLayer (P := fun _ _ => True) (by
      rintro (_ | a) l x ha hl hx
      · omega
      · exact absurd hl fun h => hnone a l h) h)
  have ch0 : ∀ x, Spec.Chosen (nodes :: List.replicate cs.length none) 0 x ↔ ∀ l, nodes = some l → x ∈ l := by
    intro x
    unfold Spec.Chosen; simp
  have chS : ∀ a x, a + 1 ≤ cs.length → Spec.Chosen (nodes :: List.replicate cs.length none) (a + 1) x := by
    intro a x ha
    exact ⟨none, by simp [List.getElem?_replicate]; omega, by simp⟩
  have lay : ∀ a x, 1 ≤ a → a ≤ cs.length → ((∃ op ∈ ops1, Spec.NamesLayerP cs.length al a x op) ↔
      ∃ op ∈ ops, Spec.NamesLayerP cs.length al a x op) := by
    rintro (_ | a) x h1 h2
    · omega
    · rw [l1.layers _ x h1 h2]
      exact ⟨fun h => h.1, fun h => ⟨h, chS a x h2⟩⟩
  have hasL : ∀ s, Spec.HasLayer cs.length al ops1 (.ofList s) ↔ Spec.HasLayer cs.length al ops (.ofList s) := by
    intro s
    unfold Spec.HasLayer
    refine exists_congr fun t => and_congr_right fun _ => and_congr_right fun hlen => ?_
    refine forall_congr' fun k => forall_congr' fun x => imp_congr_right fun hx => ?_
    have := (List.getElem?_eq_some_iff.1 hx).1
    exact lay (k + 1) x (by omega) (by omega)
  have nd : ∀ x, Spec.Happened (Spec.NamesNodeP cs.length al x) ops1 ↔
      Spec.Happened (Spec.NamesNodeP cs.length al x) ops ∧ ∀ l, nodes = some l → x ∈ l := by
    intro x
    rw [l1.nodes]
    cases al with
    | true => simp only [if_true]; rw [ch0]
    | false =>
      simp only [Bool.false_eq_true, if_false]
      constructor
      · rintro ⟨s, g1, g2⟩
        obtain ⟨n, t, e, -, hn, -⟩ := hasNodeLayer_names g1
        cases e
        exact ⟨hn, (ch0 x).1 (g2 0 x rfl)⟩
      · rintro ⟨g1, g2⟩
        obtain ⟨s, hs'⟩ := hlay.resolve_left (by simp) x g1
        refine ⟨s, hs', ?_⟩
        have hsl : s.length = cs.length := by
          obtain ⟨n, t, e, ht, -⟩ := hs'
          cases e; exact ht
        rintro (_ | a) y hy
        · simp at hy; subst hy; exact (ch0 _).2 g2
        · have := (List.getElem?_eq_some_iff.1 hy).1
          exact chS a y (by simp at this; omega)
  have hU1 : Spec.Usable cs al ops1 := ⟨hcs, hU.kind, fun d w x hd hx => hU.ints d w x hd ((lay (d + 1) x (by omega) (by
    have := (List.getElem?_eq_some_iff.1 hd).1; omega)).1 hx)⟩
  obtain ⟨m2, R2, e2, g2, z2, r2⟩ := C54_aggregate dir hU hs hal
  obtain ⟨m12, R12, e12, g12, z12, r12⟩ := C54_aggregate dir hU1 (l1.noself hs) hal
  obtain ⟨m21, e21, g21⟩ := C28_subnet_partial g2 (sel := [nodes]) rfl false
  obtain ⟨L, hL, mL⟩ := exists_layers hcs dir 0 al ops
  have sel1 : ∀ x, Spec.Selected [nodes] [x] ↔ ∀ l, nodes = some l → x ∈ l := by
    intro x
    constructor
    · intro h l hl; exact h 0 x l rfl (by simp [hl])
    · rintro h (_ | i) y l hy hl
      · simp at hy hl; subst hy; exact h l hl
      · simp at hy
  have g21' := g21.congr (S' := fun k x => k = 0 ∧ Spec.Happened (Spec.NamesNodeP cs.length al x) ops1)
      (NL' := fun nl => ∃ x, nl = [x] ∧ Spec.Happened (Spec.NamesNodeP cs.length al x) ops1) (R' := R12)
    (fun k hk x => by
      obtain rfl : k = 0 := by omega
      simp [nd])
    (fun nl => by
      constructor
      · rintro ⟨⟨x, rfl, hx⟩, hs⟩
        exact ⟨x, rfl, (nd x).2 ⟨hx, (sel1 x).1 hs⟩⟩
      · rintro ⟨x, rfl, hx⟩
        obtain ⟨h1, h2⟩ := (nd x).1 hx
        exact ⟨⟨x, rfl, h1⟩, (sel1 x).2 h2⟩)
    (fun u w hu hw => by
      obtain ⟨i, rfl⟩ := List.length_eq_one_iff.1 hu
      obtain ⟨j, rfl⟩ := List.length_eq_one_iff.1 hw
      rw [sel1 i, sel1 j]
      have in12 : R12 [i] [j] ≠ 0 → Spec.Happened (Spec.NamesNodeP cs.length al i) ops1 ∧ Spec.Happened (Spec.NamesNodeP cs.length al j) ops1 := by
        intro hne
        obtain ⟨⟨-, k1⟩, -, k2⟩ := g12.linked (u := [i]) (v := [j]) rfl rfl hne
        obtain ⟨x, e, hx⟩ := k1
        obtain ⟨y, e', hy⟩ := k2
        cases e; cases e'
        exact ⟨hx, hy⟩
      have in2 : R2 [i] [j] ≠ 0 → Spec.Happened (Spec.NamesNodeP cs.length al i) ops ∧ Spec.Happened (Spec.NamesNodeP cs.length al j) ops := by
        intro hne
        obtain ⟨⟨-, k1⟩, -, k2⟩ := g2.linked (u := [i]) (v := [j]) rfl rfl hne
        obtain ⟨x, e, hx⟩ := k1
        obtain ⟨y, e', hy⟩ := k2
        cases e; cases e'
        exact ⟨hx, hy⟩
      by_cases hij : i = j
      · subst hij; rw [z2, z12]; simp
      by_cases hin : Spec.Happened (Spec.NamesNodeP cs.length al i) ops1 ∧ Spec.Happened (Spec.NamesNodeP cs.length al j) ops1
      · obtain ⟨hi, hj⟩ := hin
        have hi' := (nd i).1 hi
        have hj' := (nd j).1 hj
        rw [if_pos ⟨rfl, hi'.2, hj'.2⟩, r2 i j hij hi'.1 hj'.1 L hL mL, r12 i j hij hi hj L hL fun s => (mL s).trans (hasL s).symm]
        congr 1
        refine List.map_congr_left fun s hs' => ?_
        obtain ⟨t, e, ht, -⟩ := (mL s).1 hs'
        cases ofList_inj' e
        rw [l1.link s i j ht, if_pos]
        refine ⟨rfl, fun k x hx => chS k x ?_, (ch0 i).2 hi'.2, (ch0 j).2 hj'.2⟩
        have := (List.getElem?_eq_some_iff.1 hx).1
        omega
      · have q12 : R12 [i] [j] = 0 := by by_contra hne; exact hin (in12 hne)
        rw [q12]
        split_ifs with hc
        · by_contra hne
          obtain ⟨k1, k2⟩ := in2 hne
          exact hin ⟨(nd i).2 ⟨k1, hc.2.1⟩, (nd j).2 ⟨k2, hc.2.2⟩⟩
        · rfl)
  exact ⟨_, m12, m2, m21, e1, e12, e2, e21, g12.eq g21' (Or.inl rfl), g21'.eq g12 (Or.inl rfl)⟩

/-- **C162, multiplex networks.** For every multiplex network with missing value 0 and categorical or ordinal couplings that is node-aligned,
or has one aspect with categorical couplings, and without self-links written through an intra-layer network: renaming (with different
names for different names, integers for the layers of ordinal aspects) and aggregating over all aspects is, in both orders, the same up
to `==`. -/
theorem C162_multiplex (dir : Bool) (hU : Spec.Usable cs al ops) (hs : Spec.NoIntraSelf ops)
    (hal : al = true ∨ ∃ w, cs = [.categorical w]) (nodes : Dict α α) (layers : List (Dict α α))
    (hinj : ∀ k ≤ cs.length, ∀ x y, Spec.CarriesName cs.length al ops k x → Spec.CarriesName cs.length al ops k y →
      Spec.newName nodes layers k x = Spec.newName nodes layers k y → x = y)
    (hints : ∀ d w x, cs[d]? = some (.ordinal w) → Spec.CarriesName cs.length al ops (d + 1) x →
      (IntNames.up (Spec.newName nodes layers (d + 1) x)).isSome = true ∧ (IntNames.down (Spec.newName nodes layers (d + 1) x)).isSome = true) :
    ∃ p1 m12 m2 m21, (afterP cs dir 0 al ops).relabel nodes layers = .ok p1 ∧
      p1.view.aggregate (List.range' 1 cs.length) false = .ok m12 ∧
      (afterP cs dir 0 al ops).view.aggregate (List.range' 1 cs.length) false = .ok m2 ∧ m2.relabel nodes [] = .ok m21 ∧
      m12.eq m21 = .ok true ∧ m21.eq m12 = .ok true := by
  have hcs := hU.some_aspect
  have hnet : ∀ c, .net c ∉ cs := by
    intro c hc
    obtain ⟨w, -, h | h⟩ := hU.kind _ hc <;> cases h
  have nm0 : ∀ x, Spec.CarriesName cs.length al ops 0 x ↔ Spec.Happened (Spec.NamesNodeP cs.length al x) ops := fun x => by
    unfold Spec.CarriesName; simp
  have nmS : ∀ a, 1 ≤ a → ∀ x, Spec.CarriesName cs.length al ops a x ↔ ∃ op ∈ ops, Spec.NamesLayerP cs.length al a x op := fun a ha x => by
    unfold Spec.CarriesName; rw [if_neg (by omega)]
  obtain ⟨ops1, e1, l1⟩ := C85_relabel (cs := cs) (dir := dir) (z := 0) (al := al) hcs hnet hs nodes layers
    (fun x y hx hy => hinj 0 (by omega) x y ((nm0 x).2 hx) ((nm0 y).2 hy))
    (fun a ha hle x y hx hy => hinj a hle x y ((nmS a ha x).2 hx) ((nmS a ha y).2 hy))
  set f := Spec.newName nodes layers with hf
  have hU1 : Spec.Usable cs al ops1 := ⟨hcs, hU.kind, fun d w x hd hx => by
    obtain ⟨y, hy, rfl⟩ := (l1.layers (d + 1) x (by omega) (by have := (List.getElem?_eq_some_iff.1 hd).1; omega)).1 hx
    exact hints d w y hd ((nmS (d + 1) (by omega) y).2 hy)⟩
  obtain ⟨m2, R2, e2, g2, z2, r2⟩ := C54_aggregate dir hU hs hal
  obtain ⟨m12, R12, e12, g12, z12, r12⟩ := C54_aggregate dir hU1 l1.noself hal
  obtain ⟨m21, R21, e21, g21, a21, b21⟩ := C30_relabel g2 nodes [] (by
    rintro k hk x y ⟨rfl, hx⟩ ⟨-, hy⟩ he
    exact hinj 0 (by omega) x y ((nm0 x).2 hx) ((nm0 y).2 hy) he)
  obtain ⟨L, hL, mL⟩ := exists_layers hcs dir 0 al ops
  have h0 : ∀ x, Spec.newName nodes ([] : List (Dict α α)) 0 x = f 0 x := fun x => rfl
  have rn : ∀ x, Spec.renamed (Spec.newName nodes ([] : List (Dict α α))) [x] = [f 0 x] := fun x => rfl
  have hl : ∀ {ops : List (POp α W)} {s : List α}, Spec.HasLayer cs.length al ops (.ofList s) → s.length = cs.length ∧
      ∀ (k : Nat) x, s[k]? = some x → ∃ op ∈ ops, Spec.NamesLayerP cs.length al (k + 1) x op := by
    rintro ops s ⟨t, e, ht, hn⟩
    cases ofList_inj' e
    exact ⟨ht, hn⟩
  have L1nodup : (L.map (Spec.renamedLayer f)).Nodup := by
    refine List.Nodup.map_on (fun s hs' t ht e => ?_) hL
    obtain ⟨s1, s2⟩ := hl ((mL s).1 hs')
    obtain ⟨t1, t2⟩ := hl ((mL t).1 ht)
    apply List.ext_getElem?
    intro k
    have hk : (Spec.renamedLayer f s)[k]? = (Spec.renamedLayer f t)[k]? := by rw [e]
    unfold Spec.renamedLayer at hk
    rw [List.getElem?_mapIdx, List.getElem?_mapIdx] at hk
    rcases ea : s[k]? with _ | x
    · rw [List.getElem?_eq_none_iff] at ea
      rw [List.getElem?_eq_none (by omega)]
    · have hlt := (List.getElem?_eq_some_iff.1 ea).1
      rcases eb : t[k]? with _ | y
      · rw [List.getElem?_eq_none_iff] at eb
        omega
      · rw [ea, eb] at hk
        simp only [Option.map_some, Option.some.injEq] at hk
        rw [hinj (k + 1) (by omega) x y ((nmS _ (by omega) x).2 (s2 k x ea)) ((nmS _ (by omega) y).2 (t2 k y eb)) hk]
  have L1mem : ∀ s, s ∈ L.map (Spec.renamedLayer f) ↔ Spec.HasLayer cs.length al ops1 (.ofList s) := by
    intro t
    rw [List.mem_map]
    constructor
    · rintro ⟨s, hs', rfl⟩
      obtain ⟨s1, s2⟩ := hl ((mL s).1 hs')
      refine ⟨_, rfl, by unfold Spec.renamedLayer; simp [s1], fun k y hy => ?_⟩
      unfold Spec.renamedLayer at hy
      rw [List.getElem?_mapIdx] at hy
      rcases ea : s[k]? with _ | x
      · rw [ea] at hy; simp at hy
      · rw [ea] at hy
        simp only [Option.map_some, Option.some.injEq] at hy
        have hlt := (List.getElem?_eq_some_iff.1 ea).1
        exact (l1.layers (k + 1) y (by omega) (by omega)).2 ⟨x, s2 k x ea, hy.symm⟩
    · intro ht
      obtain ⟨t1, t2⟩ := hl ht
      have : ∀ k : Fin t.length, ∃ x, (∃ op ∈ ops, Spec.NamesLayerP cs.length al (k + 1) x op) ∧ t[k] = f (k + 1) x := fun k =>
        (l1.layers (k + 1) t[k] (by omega) (by omega)).1 (t2 k t[k] (by simp))
      choose g hg1 hg2 using this
      refine ⟨List.ofFn g, (mL _).2 ⟨_, rfl, by simp [t1], fun k x hx => ?_⟩, ?_⟩
      · rw [List.getElem?_ofFn] at hx
        split at hx
        · simp only [Option.some.injEq] at hx; subst hx; rename_i hk; exact hg1 ⟨k, hk⟩
        · cases hx
      · unfold Spec.renamedLayer
        apply List.ext_getElem (by simp)
        intro k h1 h2
        simp only [List.getElem_mapIdx, List.getElem_ofFn]
        exact (hg2 ⟨k, h2⟩).symm
  have g21' := g21.congr (S' := fun k x => k = 0 ∧ Spec.Happened (Spec.NamesNodeP cs.length al x) ops1)
      (NL' := fun nl => ∃ x, nl = [x] ∧ Spec.Happened (Spec.NamesNodeP cs.length al x) ops1) (R' := R12)
    (fun k hk x => by
      obtain rfl : k = 0 := by omega
      simp [l1.nodes, h0])
    (fun nl => by
      constructor
      · rintro ⟨_, ⟨x, rfl, hx⟩, rfl⟩
        exact ⟨f 0 x, rn x, (l1.nodes _).2 ⟨x, hx, rfl⟩⟩
      · rintro ⟨y, rfl, hy⟩
        obtain ⟨x, hx, rfl⟩ := (l1.nodes y).1 hy
        exact ⟨[x], ⟨x, rfl, hx⟩, (rn x).symm⟩)
    (fun u w hu hw => by
      obtain ⟨i, rfl⟩ := List.length_eq_one_iff.1 hu
      obtain ⟨j, rfl⟩ := List.length_eq_one_iff.1 hw
      by_cases hin : ∃ x y, Spec.Happened (Spec.NamesNodeP cs.length al x) ops ∧ Spec.Happened (Spec.NamesNodeP cs.length al y) ops ∧
          i = f 0 x ∧ j = f 0 y
      · obtain ⟨x, y, hx, hy, rfl, rfl⟩ := hin
        have q := a21 [x] [y] ⟨x, rfl, hx⟩ ⟨y, rfl, hy⟩
        rw [rn, rn] at q
        rw [q]
        by_cases hxy : x = y
        · subst hxy; rw [z2, z12]
        · have hne : f 0 x ≠ f 0 y := fun e => hxy (hinj 0 (by omega) x y ((nm0 x).2 hx) ((nm0 y).2 hy) e)
          rw [r2 x y hxy hx hy L hL mL, r12 _ _ hne ((l1.nodes _).2 ⟨x, hx, rfl⟩) ((l1.nodes _).2 ⟨y, hy, rfl⟩) _ L1nodup L1mem, List.map_map]
          congr 1
          refine List.map_congr_left fun s hs' => ?_
          exact (l1.link s x y ((mL s).1 hs') hx hy).symm
      · have q21 : R21 [i] [j] = 0 := by
          by_contra hne
          obtain ⟨a, b, ⟨x, rfl, hx⟩, ⟨y, rfl, hy⟩, g3, g4⟩ := b21 _ _ hne
          rw [rn] at g3 g4
          exact hin ⟨x, y, hx, hy, (List.cons.inj g3).1, (List.cons.inj g4).1⟩
        have q12 : R12 [i] [j] = 0 := by
          by_contra hne
          obtain ⟨⟨-, k1⟩, -, k2⟩ := g12.linked (u := [i]) (v := [j]) rfl rfl hne
          obtain ⟨x', e, hx⟩ := k1
          obtain ⟨y', e', hy⟩ := k2
          cases e; cases e'
          obtain ⟨x, hX, rfl⟩ := (l1.nodes _).1 hx
          obtain ⟨y, hY, rfl⟩ := (l1.nodes _).1 hy
          exact hin ⟨x, y, hX, hY, rfl, rfl⟩
        rw [q21, q12])
  exact ⟨_, m12, m2, m21, e1, e12, e2, e21, g12.eq g21' (Or.inl rfl), g21'.eq g12 (Or.inl rfl)⟩

/-- two nodes of a node-aligned multiplex network, selected before and after aggregating its layers -/
example : ∃ p1 m12 m2 m21, (afterP [.categorical (1 : Int)] false 0 true exSubOps).subnet [some [1, 2], none] false = .ok p1 ∧
    p1.view.aggregate [1] false = .ok m12 ∧ (afterP [.categorical (1 : Int)] false 0 true exSubOps).view.aggregate [1] false = .ok m2 ∧
    m2.subnet [some [1, 2]] false = .ok m21 ∧ m12.eq m21 = .ok true := by
  obtain ⟨p1, m12, m2, m21, e1, e12, e2, e21, e, -⟩ := C161_multiplex_partial (cs := [.categorical (1 : Int)]) (al := true) (ops := exSubOps) false
    ⟨by simp, by simp, by rintro (_ | d) w x h <;> simp at h⟩ (by intro L i w h; simp [exSubOps] at h) (Or.inl rfl) (Or.inl rfl) (some [1, 2])
  exact ⟨p1, m12, m2, m21, e1, e12, e2, e21, e⟩

/-- two nodes of a multiplex network that is not node-aligned exchanged before and after aggregating its layers -/
example : ∃ p1 m12 m2 m21, (afterP [.categorical (1 : Int)] false 0 false exSubOps).relabel [(1, 2), (2, 1)] [[]] = .ok p1 ∧
    p1.view.aggregate [1] false = .ok m12 ∧ (afterP [.categorical (1 : Int)] false 0 false exSubOps).view.aggregate [1] false = .ok m2 ∧
    m2.relabel [(1, 2), (2, 1)] [] = .ok m21 ∧ m12.eq m21 = .ok true := by
  obtain ⟨p1, m12, m2, m21, e1, e12, e2, e21, e, -⟩ := C162_multiplex (cs := [.categorical (1 : Int)]) (al := false) (ops := exSubOps) false
    ⟨by simp, by simp, by rintro (_ | d) w x h <;> simp at h⟩ (by intro L i w h; simp [exSubOps] at h) (Or.inr ⟨1, rfl⟩) [(1, 2), (2, 1)] [[]]
    (fun k _ x y _ _ h => swapI_inj k x y h) (by rintro (_ | d) w x h <;> simp at h)
  exact ⟨p1, m12, m2, m21, e1, e12, e2, e21, e⟩

end Pymnet
