import Verif.Proofs.OrbitSets

/-! Roles of nodes: isomorphisms of sub-networks to graphlets. -/

set_option linter.unusedSectionVars false
set_option linter.unusedSimpArgs false
set_option linter.unusedVariables false

namespace Pymnet

open Py MPlex

section miso

variable {α : Type} {cpl : α → α → Prop} {al : List Nat} {g g' h : Spec.Multigraph α} {f0 f1 : α → α}

open Classical in
theorem MIso.symm [Inhabited α] (a : MIso cpl al g h f0 f1) :
    ∃ e0 e1, MIso cpl al h g e0 e1 ∧ (∀ x, g.node x → e0 (f0 x) = x) ∧ ∀ y, h.node y → f0 (e0 y) = y := by
  refine ⟨if 0 ∈ al then Function.invFunOn f0 {x | g.node x} else id, if 1 ∈ al then Function.invFunOn f1 {x | g.layer x} else id, ?_⟩
  set e0 := if 0 ∈ al then Function.invFunOn f0 {x | g.node x} else id with he0
  set e1 := if 1 ∈ al then Function.invFunOn f1 {x | g.layer x} else id with he1
  have i0 : Set.InvOn e0 f0 {x | g.node x} {x | h.node x} := by
    rw [he0]
    split
    · exact a.nodes.invOn_invFunOn
    · rename_i hn; exact ⟨fun x _ => a.fix0 hn x, fun x _ => a.fix0 hn x⟩
  have i1 : Set.InvOn e1 f1 {x | g.layer x} {x | h.layer x} := by
    rw [he1]
    split
    · exact a.layers.invOn_invFunOn
    · rename_i hn; exact ⟨fun x _ => a.fix1 hn x, fun x _ => a.fix1 hn x⟩
  have m0 : Set.MapsTo e0 {x | h.node x} {x | g.node x} := by
    rintro y hy
    obtain ⟨x, hx, rfl⟩ := a.nodes.surjOn hy
    rw [i0.1 hx]; exact hx
  have m1 : Set.MapsTo e1 {x | h.layer x} {x | g.layer x} := by
    rintro y hy
    obtain ⟨x, hx, rfl⟩ := a.layers.surjOn hy
    rw [i1.1 hx]; exact hx
  refine ⟨⟨fun hn x => by simp [he0, hn], fun hn x => by simp [he1, hn], i0.symm.bijOn m0 a.nodes.mapsTo, i1.symm.bijOn m1 a.layers.mapsTo, ?_, ?_⟩,
    fun x hx => i0.1 hx, fun y hy => i0.2 hy⟩
  · intro x i j hx hi hj
    rw [a.links _ _ _ (m1 hx) (m0 hi) (m0 hj), i1.2 hx, i0.2 hi, i0.2 hj]
  · intro x y hx hy
    rw [a.coupled _ _ (m1 hx) (m1 hy), i1.2 hx, i1.2 hy]

theorem MIso.congr_source (a : MIso cpl al g h f0 f1) (hn : ∀ x, g.node x ↔ g'.node x) (hl : ∀ x, g.layer x ↔ g'.layer x)
    (hk : ∀ x i j, g.layer x → g.node i → g.node j → (g.link x i j ↔ g'.link x i j)) : MIso cpl al g' h f0 f1 where
  fix0 := a.fix0
  fix1 := a.fix1
  nodes := by
    rw [show {x | g'.node x} = {x | g.node x} from Set.ext fun x => (hn x).symm]; exact a.nodes
  layers := by
    rw [show {x | g'.layer x} = {x | g.layer x} from Set.ext fun x => (hl x).symm]; exact a.layers
  links x i j hx hi hj := by
    rw [← hk x i j ((hl x).2 hx) ((hn i).2 hi) ((hn j).2 hj)]
    exact a.links x i j ((hl x).2 hx) ((hn i).2 hi) ((hn j).2 hj)
  coupled x y hx hy := a.coupled x y ((hl x).2 hx) ((hl y).2 hy)

theorem MIso.refl : MIso cpl al g g id id :=
  ⟨fun _ _ => rfl, fun _ _ => rfl, Set.bijOn_id _, Set.bijOn_id _, fun _ _ _ _ _ _ => Iff.rfl, fun _ _ _ _ => Iff.rfl⟩

/-- the two notions of isomorphism, for networks given by multigraphs -/
theorem iso_multigraph (hirr : ∀ x i, ¬ g.link x i i) (hirr' : ∀ x i, ¬ h.link x i i) (hcpl : ∀ x, ¬ cpl x x)
    {S S' : Nat → α → Prop} {NL NL' : List α → Prop} {L L' : List α → List α → Prop}
    (hS0 : ∀ x, S 0 x ↔ g.node x) (hS1 : ∀ x, S 1 x ↔ g.layer x) (hS0' : ∀ x, S' 0 x ↔ h.node x) (hS1' : ∀ x, S' 1 x ↔ h.layer x)
    (hN : ∀ u, NL u ↔ ∃ i x, u = [i, x] ∧ g.node i ∧ g.layer x) (hN' : ∀ u, NL' u ↔ ∃ i x, u = [i, x] ∧ h.node i ∧ h.layer x)
    (hL : ∀ i j x y, L [i, x] [j, y] ↔ (x = y ∧ g.link x i j) ∨ (i = j ∧ cpl x y))
    (hL' : ∀ i j x y, L' [i, x] [j, y] ↔ (x = y ∧ h.link x i j) ∨ (i = j ∧ cpl x y))
    (h0 : ∃ i, g.node i) (h1 : ∃ x, g.layer x) (f : Nat → α → α) :
    Spec.Isomorphism 1 al S NL L S' NL' L' f ↔ MIso cpl al g h (f 0) (f 1) := by
  obtain ⟨i0, hi0⟩ := h0
  obtain ⟨x0, hx0⟩ := h1
  have s0 : {x | S 0 x} = {x | g.node x} := Set.ext hS0
  have s1 : {x | S 1 x} = {x | g.layer x} := Set.ext hS1
  have s0' : {x | S' 0 x} = {x | h.node x} := Set.ext hS0'
  have s1' : {x | S' 1 x} = {x | h.layer x} := Set.ext hS1'
  constructor
  · intro hf
    have hnl : ∀ i x, g.node i → g.layer x → h.node (f 0 i) ∧ h.layer (f 1 x) := by
      intro i x hi hx
      obtain ⟨i', x', e, h1, h2⟩ := (hN' _).1 ((hf.nodeLayers [f 0 i, f 1 x]).2
        ⟨[i, x], (hN _).2 ⟨i, x, rfl, hi, hx⟩, rfl⟩)
      cases e; exact ⟨h1, h2⟩
    have hnl' : ∀ i x, h.node i → h.layer x → ∃ i' x', g.node i' ∧ g.layer x' ∧ i = f 0 i' ∧ x = f 1 x' := by
      intro i x hi hx
      obtain ⟨nl, h1, h2⟩ := (hf.nodeLayers [i, x]).1 ((hN' _).2 ⟨i, x, rfl, hi, hx⟩)
      obtain ⟨i', x', rfl, h3, h4⟩ := (hN _).1 h1
      have h2' : [i, x] = [f 0 i', f 1 x'] := h2
      cases h2'
      exact ⟨i', x', h3, h4, rfl, rfl⟩
    have hy0 := (hnl i0 x0 hi0 hx0)
    refine ⟨fun h => hf.fixed 0 (by omega) h, fun h => hf.fixed 1 (by omega) h, ?_, ?_, ?_, ?_⟩
    · by_cases ha : 0 ∈ al
      · rw [← s0, ← s0']; exact hf.bij 0 (by omega) ha
      · have hid := hf.fixed 0 (by omega) ha
        refine ⟨fun i hi => (hnl i x0 hi hx0).1, fun a _ b _ e => by rwa [hid, hid] at e, fun i hi => ?_⟩
        obtain ⟨i', x', h1, h2, h3, h4⟩ := hnl' i _ hi hy0.2
        exact ⟨i', h1, h3.symm⟩
    · by_cases ha : 1 ∈ al
      · rw [← s1, ← s1']; exact hf.bij 1 (by omega) ha
      · have hid := hf.fixed 1 (by omega) ha
        refine ⟨fun x hx => (hnl i0 x hi0 hx).2, fun a _ b _ e => by rwa [hid, hid] at e, fun x hx => ?_⟩
        obtain ⟨i', x', h1, h2, h3, h4⟩ := hnl' _ x hy0.1 hx
        exact ⟨x', h2, h4.symm⟩
    · intro x i j hx hi hj
      have : L [i, x] [j, x] ↔ L' [f 0 i, f 1 x] [f 0 j, f 1 x] :=
        hf.links [i, x] [j, x] ((hN _).2 ⟨i, x, rfl, hi, hx⟩) ((hN _).2 ⟨j, x, rfl, hj, hx⟩)
      rw [hL, hL'] at this
      simpa [hcpl] using this
    · intro x y hx hy
      have : L [i0, x] [i0, y] ↔ L' [f 0 i0, f 1 x] [f 0 i0, f 1 y] :=
        hf.links [i0, x] [i0, y] ((hN _).2 ⟨i0, x, rfl, hi0, hx⟩) ((hN _).2 ⟨i0, y, rfl, hi0, hy⟩)
      rw [hL, hL'] at this
      simpa [hirr, hirr'] using this
  · intro hf
    refine ⟨fun a ha hn => ?_, fun a ha hm => ?_, fun u => ?_, fun u v hu hv => ?_⟩
    · rcases Nat.eq_zero_or_pos a with rfl | h
      · exact hf.fix0 hn
      · obtain rfl : a = 1 := by omega
        exact hf.fix1 hn
    · rcases Nat.eq_zero_or_pos a with rfl | h
      · rw [s0, s0']; exact hf.nodes
      · obtain rfl : a = 1 := by omega
        rw [s1, s1']; exact hf.layers
    · constructor
      · intro h
        obtain ⟨i, x, rfl, h1, h2⟩ := (hN' _).1 h
        obtain ⟨i', h3, rfl⟩ := hf.nodes.surjOn h1
        obtain ⟨x', h4, rfl⟩ := hf.layers.surjOn h2
        exact ⟨[i', x'], (hN _).2 ⟨i', x', rfl, h3, h4⟩, rfl⟩
      · rintro ⟨nl, h1, rfl⟩
        obtain ⟨i, x, rfl, h1, h2⟩ := (hN _).1 h1
        exact (hN' _).2 ⟨_, _, rfl, hf.nodes.mapsTo h1, hf.layers.mapsTo h2⟩
    · obtain ⟨i, x, rfl, h1, h2⟩ := (hN _).1 hu
      obtain ⟨j, y, rfl, h3, h4⟩ := (hN _).1 hv
      change L [i, x] [j, y] ↔ L' [f 0 i, f 1 x] [f 0 j, f 1 y]
      rw [hL, hL']
      have ex : x = y ↔ f 1 x = f 1 y := ⟨fun h => by rw [h], fun h => hf.layers.injOn h2 h4 h⟩
      have ei : i = j ↔ f 0 i = f 0 j := ⟨fun h => by rw [h], fun h => hf.nodes.injOn h1 h3 h⟩
      rw [← ex, ← ei, ← hf.links x i j h2 h1 h3, ← hf.coupled x y h2 h4]

/-- the part of a multigraph on some of its nodes -/
def subG (g : Spec.Multigraph α) (s : Finset α) : Spec.Multigraph α := ⟨(· ∈ s), g.layer, g.link⟩

end miso

variable {α W β σ : Type} [DecidableEq α] [DecidableEq W] [Zero W] [LawfulIntNames α] [LinearOrder α] [DecidableEq σ]

variable {layers : List α} {c : Coupling α W} {ops ops' : List (POp α W)} {allowed : Option (List Nat)} {s : Finset α}

theorem connected_layer (hs : Spec.ConnectedSet (Spec.shown ops) s) (h2 : 2 ≤ s.card) :
    (∃ i, i ∈ s) ∧ ∃ x, (Spec.shown ops).layer x := by
  obtain ⟨i, j, hi, hj, hij⟩ := Finset.one_lt_card_iff.1 (by omega : 1 < s.card)
  obtain ⟨a, b, ⟨-, -, x, hx, -⟩, -⟩ := Spec.LinkConnected.cross (s := (· = i)) (hs.connected i j hi hj) rfl hij.symm
  exact ⟨⟨i, hi⟩, x, hx⟩

theorem iso_shown (h0 : ∃ i, (Spec.shown ops).node i) (h1 : ∃ x, (Spec.shown ops).layer x) (f : Nat → α → α) :
    Spec.Isomorphism 1 (Spec.mayChange 1 allowed)
      (fun a x => if a = 0 then (Spec.shown ops).node x else (Spec.shown ops).layer x) (Spec.HasNodeLayer 1 true ops) (Spec.Linked [c] false true ops)
      (fun a x => if a = 0 then (Spec.shown ops').node x else (Spec.shown ops').layer x) (Spec.HasNodeLayer 1 true ops')
      (Spec.Linked [c] false true ops') f ↔
    MIso (cplRel c) (Spec.mayChange 1 allowed) (Spec.shown ops) (Spec.shown ops') (f 0) (f 1) :=
  iso_multigraph (g := Spec.shown ops) (h := Spec.shown ops') (fun x i h => h.1 rfl) (fun x i h => h.1 rfl)
    (fun x h => cplRel_ne h rfl) (fun x => by simp) (fun x => by simp)
    (fun x => by simp) (fun x => by simp) (fun u => hasNodeLayer_one) (fun u => hasNodeLayer_one) (fun i j x y => linked_one)
    (fun i j x y => linked_one) h0 h1 f

theorem playsRole_iff (hs : ∀ x ∈ s, (Spec.shown ops).node x) (h0 : ∃ i, i ∈ s) (h1 : ∃ x, (Spec.shown ops).layer x) {v o : α} :
    Spec.PlaysRole c allowed ops s v ops' o ↔
      ∃ f0 f1, MIso (cplRel c) (Spec.mayChange 1 allowed) (subG (Spec.shown ops) s) (Spec.shown ops') f0 f1 ∧ f0 v = o := by
  have key := fun f => iso_multigraph (g := subG (Spec.shown ops) s) (h := Spec.shown ops') (cpl := cplRel c)
    (al := Spec.mayChange 1 allowed) (S := fun a x => if a = 0 then x ∈ s else (Spec.shown ops).layer x)
    (NL := fun u => Spec.HasNodeLayer 1 true ops u ∧ ∃ i ∈ s, u.head? = some i) (L := Spec.Linked [c] false true ops)
    (S' := fun a x => if a = 0 then (Spec.shown ops').node x else (Spec.shown ops').layer x) (NL' := Spec.HasNodeLayer 1 true ops')
    (L' := Spec.Linked [c] false true ops')
    (fun x i h => h.1 rfl) (fun x i h => h.1 rfl) (fun x h => cplRel_ne h rfl) (fun x => by simp [subG]) (fun x => by simp [subG])
    (fun x => by simp) (fun x => by simp) (fun u => by
      rw [hasNodeLayer_one]
      constructor
      · rintro ⟨⟨i, x, rfl, h2, h3⟩, j, hj, e⟩
        cases e
        exact ⟨i, x, rfl, hj, h3⟩
      · rintro ⟨i, x, rfl, h2, h3⟩
        exact ⟨⟨i, x, rfl, hs i h2, h3⟩, i, h2, rfl⟩) (fun u => hasNodeLayer_one) (fun i j x y => linked_one)
    (fun i j x y => linked_one) h0 h1 f
  constructor
  · rintro ⟨f, hf, rfl⟩
    exact ⟨f 0, f 1, (key f).1 hf, rfl⟩
  · rintro ⟨f0, f1, hf, rfl⟩
    exact ⟨fun a => if a = 0 then f0 else f1, (key _).2 hf, rfl⟩

variable [One W] {canon : CGraph → β} {str : List (List α × Nat) × β → σ} {idx : Nat → α} {nl : Nat}
  {match? : CGraph → CGraph → Option (Dict Nat Nat)} {ord : Finset α → List α} {N : Nat} {T : Tables α W σ}

theorem gen_netOk (ok : GenOk canon str allowed c idx layers) {m : Nat} (hg : Spec.Generated idx m nl layers ops) :
    NetOk layers c ops :=
  ⟨ok.cpl, fun x hx => by obtain ⟨l, h1, -, h3⟩ := hg.layer; exact h1.subset ((h3 x).1 hx), hg.noself⟩

/-- the keys of two networks, for any networks -/
theorem netOk_keys (ok : GenOk canon str allowed c idx layers) (h : NetOk layers c ops) (h' : NetOk layers c ops') :
    ∃ k k', (afterP [c] false 0 true ops).invariantKey canon str allowed = .ok k ∧
      (afterP [c] false 0 true ops').invariantKey canon str allowed = .ok k' ∧
      (k = k' ↔ Spec.Isomorphic c allowed ops ops') := by
  obtain ⟨ci, ci', h1, h2, h3⟩ := invariant_core h.shows h'.shows (by omega) ok.al ok.canon
  refine ⟨str ci, str ci', by simp only [MPlex.invariantKey, h1], by simp only [MPlex.invariantKey, h2], ?_⟩
  rw [ok.str.eq_iff, h3]
  rfl

/-- a connected set of nodes is recognised -/
theorem identify_spec (ok : GenOk canon str allowed c idx layers) (h0 : 0 ∈ Spec.mayChange 1 allowed)
    (hF : Spec.FindsIso match?) (hord : ∀ s, (ord s).Nodup ∧ ∀ x, x ∈ ord s ↔ x ∈ s)
    (hT : NInv canon str allowed c idx nl layers N (T.nets, T.invs)) (hnet : NetOk layers c ops)
    (hlay : ∃ l : List α, l.Sublist layers ∧ l.length = nl ∧ ∀ x, (Spec.shown ops).layer x ↔ x ∈ l)
    (hs : Spec.ConnectedSet (Spec.shown ops) s) (h2 : 2 ≤ s.card) (hN : s.card ≤ N) :
    ∃ m k ops' iso f1, identify ⟨canon, str, match?, allowed⟩ T ord (afterP [c] false 0 true ops) s = .ok (m, k, iso) ∧
      Stored T.nets m k (afterP [c] false 0 true ops') ∧ Spec.Generated idx m nl layers ops' ∧ m = s.card ∧
      MIso (cplRel c) (Spec.mayChange 1 allowed) (subG (Spec.shown ops) s) (Spec.shown ops') (dget (iso.headD [])) f1 := by
  have hcs : [c] ≠ [] := by simp
  set L := (afterP [c] false 0 true ops).slices.getD 1 [] with hLdef
  have hL : ∀ x, x ∈ L ↔ (Spec.shown ops).layer x := (mem_slices_one c ops).2
  obtain ⟨⟨i0, hi0⟩, x0, hx0⟩ := connected_layer hs h2
  obtain ⟨ops1, e1, P⟩ := C84_subnet (dir := false) (z := 0) (al := true) (ops := ops) hcs
    (by intro m hm; simp at hm; exact good_not_net ok m hm.symm) (sel := [some (ord s), some L]) rfl false
    (Or.inr (by
      rintro t ⟨h1, h2⟩
      obtain ⟨x, rfl⟩ := List.length_eq_one_iff.1 h1
      refine hasLayer_shown.2 ((hL x).1 ?_)
      rcases h2 0 x rfl with ⟨l, h3, h4⟩ | ⟨h3, -⟩
      · cases h3; exact h4
      · cases h3))
  have n1 : ∀ x, (Spec.shown ops1).node x ↔ x ∈ s := by
    intro x
    have := P.nodes x
    rw [if_pos rfl] at this
    refine this.trans ⟨?_, fun h => ⟨hs.nodes x h, _, rfl, fun l hl => ?_⟩⟩
    · rintro ⟨-, w, hw, h⟩
      cases hw
      exact ((hord s).2 x).1 (h _ rfl)
    · cases hl; exact ((hord s).2 x).2 h
  have l1 : ∀ x, (Spec.shown ops1).layer x ↔ (Spec.shown ops).layer x := by
    intro x
    refine (P.layers 1 x (by omega) (by simp)).trans (and_iff_left_of_imp fun h => ⟨_, rfl, fun l hl => ?_⟩)
    cases hl; exact (hL x).2 h
  have k1 : ∀ x i j, i ∈ s → j ∈ s → ((Spec.shown ops1).link x i j ↔ (Spec.shown ops).link x i j) := by
    intro x i j hi hj
    refine and_congr_right fun _ => ?_
    rw [show Spec.readP 1 false true ops1 [x] i j = _ from P.link [x] i j rfl]
    by_cases h0 : Spec.readP 1 false true ops [x] i j = 0
    · rw [show Spec.readP [c].length false true ops [x] i j = 0 from h0]; simp [h0]
    · obtain ⟨g1, -, -⟩ := readP_ne (cs := [c]) hcs (dir := false) (al := true) (ops := ops) (s := [x]) rfl h0
      rw [if_pos]
      · rfl
      · refine ⟨rfl, fun k y hy => ?_, ⟨_, rfl, fun l hl => ?_⟩, ⟨_, rfl, fun l hl => ?_⟩⟩
        · match k, hy with
          | 0, hy =>
            cases hy
            refine ⟨_, rfl, fun l hl => ?_⟩
            cases hl; exact (hL x).2 (hasLayer_shown.1 g1)
        · cases hl; exact ((hord s).2 i).2 hi
        · cases hl; exact ((hord s).2 j).2 hj
  have hnet1 : NetOk layers c ops1 := ⟨ok.cpl, fun x hx => hnet.lay x ((l1 x).1 hx), P.noself hnet.self⟩
  have hgr : Spec.Graphlet s.card nl layers (Spec.shown ops1) := by
    refine ⟨⟨ord s, (hord s).1, ?_, fun x => by rw [n1, (hord s).2]⟩, ?_, ?_⟩
    · rw [← List.toFinset_card_of_nodup (hord s).1]
      congr 1
      ext x; simp [(hord s).2]
    · obtain ⟨l, h3, h4, h5⟩ := hlay
      exact ⟨l, h3, h4, fun x => (l1 x).trans (h5 x)⟩
    · refine hs.connected.mono (fun x => (n1 x).symm) ?_
      rintro a b ha hb ⟨x, h3, h4⟩
      exact ⟨x, (l1 x).2 h3, (k1 x a b ha hb).2 h4⟩
  obtain ⟨k, ops', hst, hgen, f0, f1, hf⟩ := hT.all h0 s.card h2 hN _ hgr (fun x i j => link_symm) (fun x i h => h.1 rfl)
  have hiso : Spec.Isomorphic c allowed ops' ops1 :=
    (isomorphic_iff (gen_node hgen h2) (gen_layer hgen ok.idx h2)).2 ⟨f0, f1, hf⟩
  obtain ⟨key, key', e2, e3, hk⟩ := netOk_keys ok (gen_netOk ok hgen) hnet1
  obtain rfl := hk.2 hiso
  have hinv := (hT.inv key s.card k).2 ⟨_, hst, e2⟩
  have : Inhabited α := ⟨i0⟩
  obtain ⟨g0, g1, hg, -⟩ := hf.symm
  have hn1 : ∃ i, (Spec.shown ops1).node i := ⟨i0, (n1 i0).2 hi0⟩
  have hx1 : ∃ x, (Spec.shown ops1).layer x := ⟨x0, (l1 x0).2 hx0⟩
  obtain ⟨-, iso, e4, hlen, hperm, -⟩ := (iso_core hnet1.shows (gen_netOk ok hgen).shows (by omega) ok.al hF false).1
    ((isomorphic_iff hn1 hx1).2 ⟨g0, g1, hg⟩)
  obtain ⟨l, hl, hlk⟩ := hst
  refine ⟨s.card, k, ops', iso, Spec.permOf iso 1, ?_, ⟨l, hl, hlk⟩, hgen, rfl, ?_⟩
  · unfold identify
    rw [show (afterP [c] false 0 true ops).slices.getD 1 [] = L from rfl, e1]
    dsimp only
    rw [e3]
    dsimp only
    rw [show Dict.get T.invs key = _ from hinv]
    dsimp only
    rw [show Dict.get T.nets s.card = _ from hl]
    dsimp only
    rw [hlk]
    dsimp only
    rw [e4]
  · have hm := (iso_shown hn1 hx1 _).1 hperm
    have e5 : dget (iso.headD []) = Spec.permOf iso 0 := by
      funext x
      unfold dget Spec.permOf
      match iso, hlen with
      | d :: t, _ => rfl
    rw [e5]
    exact hm.congr_source n1 l1 fun x i j _ hi hj => k1 x i j ((n1 i).1 hi) ((n1 j).1 hj)

end Pymnet
