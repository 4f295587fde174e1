import Verif.Proofs.GenBuild
import Mathlib.Data.Set.Card

/-! `graphlets`: the loops, and completeness. -/

set_option linter.unusedSectionVars false
set_option linter.unusedSimpArgs false
set_option linter.unusedVariables false

namespace Pymnet

open Py MPlex

variable {α W β σ : Type} [DecidableEq α] [DecidableEq W] [Zero W] [One W] [LawfulIntNames α] [LinearOrder α] [DecidableEq σ]

/-- Internal: what is assumed of the parameters. -/
structure GenOk (canon : CGraph → β) (str : List (List α × Nat) × β → σ) (allowed : Option (List Nat)) (c : Coupling α W)
    (idx : Nat → α) (layers : List α) : Prop where
  canon : Spec.Canonical canon
  str : Function.Injective str
  al : ∀ a ∈ Spec.mayChange 1 allowed, a ≤ 1
  cpl : Spec.GoodCoupling layers c
  idx : Function.Injective idx
  one : (1 : W) ≠ 0

variable {canon : CGraph → β} {str : List (List α × Nat) × β → σ} {allowed : Option (List Nat)} {c : Coupling α W}
  {idx : Nat → α} {layers : List α} {nl m m' : Nat} {ops ops' : List (POp α W)}

theorem shown_congr (h : afterP [c] false 0 true ops = afterP [c] false 0 true ops') : Spec.shown ops = Spec.shown ops' := by
  have hcs : [c] ≠ [] := by simp
  obtain ⟨s0, s1, -, -, s4⟩ := after_spec hcs false 0 true ops
  obtain ⟨t0, t1, -, -, t4⟩ := after_spec hcs false 0 true ops'
  rw [h] at s0 s1 s4
  unfold Spec.shown
  congr 1
  · ext x; exact (s0 x).symm.trans (t0 x)
  · ext x; exact (s1 1 x (by omega)).symm.trans (t1 1 x (by omega))
  · ext x i j
    have := (s4 [x] i j rfl).symm.trans (t4 [x] i j rfl)
    rw [show Spec.readP 1 false true ops [x] i j = Spec.readP 1 false true ops' [x] i j from this]

omit [LawfulIntNames α] [LinearOrder α] [DecidableEq α] [DecidableEq W] in
theorem gen_node (hg : Spec.Generated idx m nl layers ops) (hm : 2 ≤ m) : ∃ i, (Spec.shown ops).node i :=
  ⟨idx 0, (hg.nodes _).2 ⟨0, by omega, rfl⟩⟩

omit [LawfulIntNames α] [LinearOrder α] [DecidableEq α] [DecidableEq W] in
theorem gen_layer (hg : Spec.Generated idx m nl layers ops) (hi : Function.Injective idx) (hm : 2 ≤ m) :
    ∃ x, (Spec.shown ops).layer x := by
  have := hg.connected (idx 0) (idx 1) ((hg.nodes _).2 ⟨0, by omega, rfl⟩) ((hg.nodes _).2 ⟨1, by omega, rfl⟩)
  obtain ⟨a, b, ⟨-, -, x, h, -⟩, -⟩ := Spec.LinkConnected.cross (s := (· = idx 0)) this rfl
    (fun e => by have := hi e; omega)
  exact ⟨x, h⟩

/-- the keys of two networks -/
theorem gen_keys (ok : GenOk canon str allowed c idx layers) (hg : Spec.Generated idx m nl layers ops)
    (hg' : Spec.Generated idx m' nl layers ops') :
    ∃ k k', (afterP [c] false 0 true ops).invariantKey canon str allowed = .ok k ∧
      (afterP [c] false 0 true ops').invariantKey canon str allowed = .ok k' ∧
      (k = k' ↔ Spec.Isomorphic c allowed ops ops') := by
  have sh : ∀ {m ops}, Spec.Generated idx m nl layers ops → _ := fun {m ops} (h : Spec.Generated idx m nl layers ops) =>
    shows_one (ops := ops) ok.cpl (by
      intro x hx
      obtain ⟨l, h1, -, h3⟩ := h.layer
      exact h1.subset ((h3 x).1 hx)) (after_noself (by simp) false 0 true ops h.noself)
  obtain ⟨ci, ci', h1, h2, h3⟩ := invariant_core (sh hg) (sh hg') (by omega) ok.al ok.canon
  refine ⟨str ci, str ci', by simp only [MPlex.invariantKey, h1], by simp only [MPlex.invariantKey, h2], ?_⟩
  rw [ok.str.eq_iff, h3]
  rfl

/-- A stored network. -/
def IsGen (c : Coupling α W) (idx : Nat → α) (nl : Nat) (layers : List α) (m : Nat) (p : MPlex α W) : Prop :=
  ∃ ops, p = afterP [c] false 0 true ops ∧ Spec.Generated idx m nl layers ops

variable (canon str allowed) in
/-- Internal: the state while the networks of one size are collected. -/
structure GInv (c : Coupling α W) (idx : Nat → α) (nl : Nat) (layers : List α) (old : Nat → Nat → MPlex α W → Prop) (size : Nat)
    (st : GenState α W σ) : Prop where
  gen : ∀ p ∈ st.found, IsGen c idx nl layers size p
  inv : ∀ key m k, Dict.get st.invariants key = some (m, k) ↔
    ∃ p, (old m k p ∨ (m = size ∧ st.found[k]? = some p)) ∧ p.invariantKey canon str allowed = .ok key

variable {old : Nat → Nat → MPlex α W → Prop} {size : Nat}

variable (canon str allowed) in
/-- Internal: a step that collects networks, and the keys that are represented afterwards. -/
def Runs (c : Coupling α W) (idx : Nat → α) (nl : Nat) (layers : List α) (old : Nat → Nat → MPlex α W → Prop) (size : Nat)
    (f : GenState α W σ → Except Err (GenState α W σ)) (Q : σ → Prop) : Prop :=
  ∀ st, GInv canon str allowed c idx nl layers old size st → ∃ st', f st = .ok st' ∧
    GInv canon str allowed c idx nl layers old size st' ∧
    (∀ key, (Dict.get st.invariants key).isSome = true → (Dict.get st'.invariants key).isSome = true) ∧
    ∀ key, Q key → (Dict.get st'.invariants key).isSome = true

theorem Runs.forE {γ : Type} {f : GenState α W σ → γ → Except Err (GenState α W σ)} {Q : γ → σ → Prop} (l : List γ)
    (h : ∀ b ∈ l, Runs canon str allowed c idx nl layers old size (fun st => f st b) (Q b)) :
    Runs canon str allowed c idx nl layers old size (forE f l) (fun key => ∃ b ∈ l, Q b key) := by
  intro st hst
  obtain ⟨st', e, h1, h2, h3⟩ := forE_ok (f := f) (s := st) (P := fun pre st' => GInv canon str allowed c idx nl layers old size st' ∧
    (∀ key, (Dict.get st.invariants key).isSome = true → (Dict.get st'.invariants key).isSome = true) ∧
    ∀ key, (∃ b ∈ pre, Q b key) → (Dict.get st'.invariants key).isSome = true) l ⟨hst, fun _ h => h, by simp⟩ (by
      intro pre b post s hl ⟨h1, h2, h3⟩
      obtain ⟨s', e, g1, g2, g3⟩ := h b (by simp [hl]) s h1
      refine ⟨s', e, g1, fun k hk => g2 k (h2 k hk), ?_⟩
      rintro k ⟨b', hb', hq⟩
      rcases List.mem_append.1 hb' with hb' | hb'
      · exact g2 k (h3 k ⟨b', hb', hq⟩)
      · simp at hb'; subst hb'; exact g3 k hq)
  exact ⟨st', e, h1, h2, h3⟩

theorem runs_keepNew (ok : GenOk canon str allowed c idx layers) {p : MPlex α W} (hp : IsGen c idx nl layers size p) :
    Runs canon str allowed c idx nl layers old size (fun st => keepNew canon str allowed size st p)
      (fun key => p.invariantKey canon str allowed = .ok key) := by
  intro st hst
  obtain ⟨ops, rfl, hg⟩ := hp
  obtain ⟨k, -, hk, -⟩ := gen_keys ok hg hg
  unfold keepNew
  simp only [hk]
  by_cases hh : Dict.has st.invariants k = true
  · refine ⟨st, by rw [if_pos hh], hst, fun _ h => h, ?_⟩
    rintro key e
    cases e
    exact hh
  · have hnone : Dict.get st.invariants k = none := by
      unfold Dict.has at hh
      simpa using hh
    refine ⟨_, by rw [if_neg hh], ⟨?_, ?_⟩, ?_, ?_⟩
    · intro q hq
      rcases List.mem_append.1 hq with hq | hq
      · exact hst.gen q hq
      · simp at hq; subst hq; exact ⟨ops, rfl, hg⟩
    · intro key m j
      rw [Dict.get_set]
      by_cases hkk : k = key
      · subst hkk
        rw [if_pos rfl]
        constructor
        · intro e
          simp only [Option.some.injEq, Prod.mk.injEq] at e
          obtain ⟨rfl, rfl⟩ := e
          exact ⟨_, Or.inr ⟨rfl, by simp⟩, hk⟩
        · rintro ⟨q, (h | ⟨rfl, h⟩), hq⟩
          · have := (hst.inv k m j).2 ⟨q, Or.inl h, hq⟩
            rw [hnone] at this; cases this
          · rw [List.getElem?_append] at h
            split at h
            · have := (hst.inv k m j).2 ⟨q, Or.inr ⟨rfl, h⟩, hq⟩
              rw [hnone] at this; cases this
            · rename_i hlt
              have : j = st.found.length := by
                by_contra hne
                rw [List.getElem?_eq_none (by simp; omega)] at h
                cases h
              rw [this]
      · rw [if_neg hkk, hst.inv]
        refine exists_congr fun q => and_congr_left fun hq => or_congr_right (and_congr_right fun hm => ?_)
        rw [List.getElem?_append]
        split
        · rfl
        · rename_i hlt
          rw [List.getElem?_eq_none (by omega)]
          refine iff_of_false (by simp) fun h => ?_
          have hq' := List.mem_of_getElem? h
          simp at hq'
          subst hq'
          rw [hk] at hq
          cases hq
          exact hkk rfl
    · intro key h
      rw [Dict.get_set]
      split
      · rfl
      · exact h
    · rintro key e
      cases e
      simp

omit [DecidableEq α] [DecidableEq W] [Zero W] [One W] [LawfulIntNames α] [LinearOrder α] in
theorem mem_layerCombinations {L lc : List α} : lc ∈ layerCombinations L ↔ lc.Sublist L ∧ lc ≠ [] := by
  simp only [layerCombinations, List.mem_flatMap, List.mem_range'_1, mem_combinations]
  constructor
  · rintro ⟨k, ⟨h1, _⟩, h2, h3⟩
    exact ⟨h2, by rintro rfl; simp at h3; omega⟩
  · rintro ⟨h1, h2⟩
    have := List.length_pos_iff.2 h2
    have := h1.length_le
    exact ⟨lc.length, ⟨by omega, by omega⟩, h1, rfl⟩

theorem runs_pairs (ok : GenOk canon str allowed c idx layers) :
    Runs canon str allowed c idx nl layers old 2 (fun st =>
      forE (fun st netLayers =>
        forE (fun st layerComb =>
          match pairNet [c] idx netLayers layerComb with
          | .error e => .error e
          | .ok p => keepNew canon str allowed 2 st p) (layerCombinations netLayers) st) (combinations layers nl) st)
      (fun key => ∃ L ∈ combinations layers nl, ∃ lc ∈ layerCombinations L, ∃ p, pairNet [c] idx L lc = .ok p ∧
        p.invariantKey canon str allowed = .ok key) := by
  refine Runs.forE _ fun L hL => Runs.forE _ fun lc hlc => ?_
  obtain ⟨h1, h2⟩ := mem_combinations.1 hL
  obtain ⟨h3, h4⟩ := mem_layerCombinations.1 hlc
  obtain ⟨ops, e, hg, -⟩ := pairNet_spec (c := c) ok.idx ok.one h1 h2 h3.subset h4
  intro st hst
  obtain ⟨st', g1, g2, g3, g4⟩ := runs_keepNew (old := old) ok ⟨ops, rfl, hg⟩ st hst
  refine ⟨st', by rw [e]; exact g1, g2, g3, ?_⟩
  rintro key ⟨p, hp, hk⟩
  rw [e] at hp; cases hp
  exact g4 key hk

theorem good_not_net (ok : GenOk canon str allowed c idx layers) : ∀ m, c ≠ .net m := by
  rintro m rfl; exact ok.cpl

/-- the sorted layers of a stored network -/
theorem netLayers_spec (hops : List (POp α W)) (x : α) :
    x ∈ pySorted ((afterP [c] false 0 true hops).slices.getD 1 []) ↔ (Spec.shown hops).layer x := by
  rw [(pySorted_perm _).mem_iff]
  have := (builtX_after [c] false 0 true hops).mem_slices (by simp) (a := 1) (by simp) x
  rw [if_neg (by omega)] at this
  exact this

variable (canon str allowed) in
/-- Internal: the keys of the extensions of a network. -/
def ExtKey (idx : Nat → α) (i : Nat) (p : MPlex α W) (key : σ) : Prop :=
  ∃ nn ∈ List.range' 1 i, ∃ nc ∈ combinations (List.range i) nn,
    ∃ lcs ∈ product (List.replicate nn (layerCombinations (pySorted (p.slices.getD 1 [])))),
    ∃ q, extendNet idx i p (pySorted (p.slices.getD 1 [])) nc lcs = .ok q ∧ q.invariantKey canon str allowed = .ok key

theorem runs_extensions (ok : GenOk canon str allowed c idx layers) {i : Nat} (hi : 2 ≤ i)
    (hg : Spec.Generated idx i nl layers ops) :
    Runs canon str allowed c idx nl layers old (i + 1)
      (fun st => extensions canon str allowed idx i st (afterP [c] false 0 true ops))
      (ExtKey canon str allowed idx i (afterP [c] false 0 true ops)) := by
  unfold extensions
  refine Runs.forE _ fun nn hnn => Runs.forE _ fun nc hnc => Runs.forE _ fun lcs hlcs => ?_
  obtain ⟨h1, h2⟩ := mem_combinations.1 hnc
  have h3 := mem_product.1 hlcs
  have h4 : lcs.length = nn := by have := h3.length_eq; simpa using this
  have hnn' := List.mem_range'_1.1 hnn
  have h5 : ∀ l ∈ lcs, l ∈ layerCombinations (pySorted ((afterP [c] false 0 true ops).slices.getD 1 [])) := by
    intro l hl
    obtain ⟨j, hj, rfl⟩ := List.getElem_of_mem hl
    have := List.Forall₂.get h3 hj (by simpa [h4] using hj)
    simpa using this
  obtain ⟨ops', e, hg', -⟩ := extendNet_spec (c := c) ok.idx ok.one (good_not_net ok) hg
    (L := pySorted ((afterP [c] false 0 true ops).slices.getD 1 [])) (fun x => (netLayers_spec ops x).symm) (nc := nc)
    (lcs := lcs) (fun k hk => List.mem_range.1 (h1.subset hk)) (by rintro rfl; simp at h2; omega) (by omega)
    (fun l hl => ⟨(mem_layerCombinations.1 (h5 l hl)).1.subset, (mem_layerCombinations.1 (h5 l hl)).2⟩)
  intro st hst
  obtain ⟨st', g1, g2, g3, g4⟩ := runs_keepNew (old := old) ok ⟨ops', rfl, hg'⟩ st hst
  refine ⟨st', by rw [e]; exact g1, g2, g3, ?_⟩
  rintro key ⟨p, hp, hk⟩
  rw [e] at hp; cases hp
  exact g4 key hk

/-! ### every graphlet is found -/

omit [DecidableEq W] [One W] [LawfulIntNames α] [LinearOrder α] [DecidableEq α] [Zero W] in
theorem MIso.congr_target {cpl : α → α → Prop} {al : List Nat} {g h : Spec.Multigraph α} {f0 f1 : α → α}
    (a : MIso cpl al g h f0 f1) (e0 : α → α) (hne : 0 ∈ al) (hb : Set.BijOn e0 {x | g.node x} {x | h.node x})
    (hl : ∀ x i j, g.layer x → g.node i → g.node j → (g.link x i j ↔ h.link (f1 x) (e0 i) (e0 j))) : MIso cpl al g h e0 f1 :=
  ⟨fun h => absurd hne h, a.fix1, hb, a.layers, hl, a.coupled⟩

/-- a graphlet with two nodes is one of the networks of the first loop -/
theorem cover_pair (ok : GenOk canon str allowed c idx layers) (h0 : 0 ∈ Spec.mayChange 1 allowed) {g : Spec.Multigraph α}
    (hg : Spec.Graphlet 2 nl layers g) (hsym : ∀ x i j, g.link x i j → g.link x j i) (hirr : ∀ x i, ¬ g.link x i i) :
    ∃ L ∈ combinations layers nl, ∃ lc ∈ layerCombinations L, ∃ ops, pairNet [c] idx L lc = .ok (afterP [c] false 0 true ops) ∧
      Spec.Generated idx 2 nl layers ops ∧
      ∃ f0 f1, MIso (cplRel c) (Spec.mayChange 1 allowed) (Spec.shown ops) g f0 f1 := by
  classical
  obtain ⟨ns, hn1, hn2, hn3⟩ := hg.nodes
  obtain ⟨L, hL1, hL2, hL3⟩ := hg.layer
  obtain ⟨u, v, rfl⟩ := List.length_eq_two.1 hn2
  have huv : u ≠ v := by simpa using hn1
  have hu : g.node u := (hn3 u).2 (by simp)
  have hv : g.node v := (hn3 v).2 (by simp)
  obtain ⟨a, b, ⟨-, hb, x, hx1, hx2⟩, hau, hbu⟩ := Spec.LinkConnected.cross (s := (· = u)) (hg.connected u v hu hv) rfl huv.symm
  subst hau
  have hbv : b = v := by simpa [hbu] using (hn3 b).1 hb
  subst hbv
  set lc := L.filter fun x => decide (g.link x a b) with hlc
  have hmem : ∀ y, y ∈ lc ↔ y ∈ L ∧ g.link y a b := by intro y; simp [hlc]
  have hsub : lc.Sublist L := List.filter_sublist
  have hne : lc ≠ [] := List.ne_nil_of_mem ((hmem x).2 ⟨(hL3 x).1 hx1, hx2⟩)
  obtain ⟨ops, e, hgen, hlay, hlink⟩ := pairNet_spec (c := c) ok.idx ok.one hL1 hL2 hsub.subset hne
  have h01 : idx 0 ≠ idx 1 := fun e => by have := ok.idx e; omega
  refine ⟨L, mem_combinations.2 ⟨hL1, hL2⟩, lc, mem_layerCombinations.2 ⟨hsub, hne⟩, ops, e, hgen,
    fun y => if y = idx 0 then a else b, id, fun h => absurd h0 h, fun _ _ => rfl, ?_, ?_, ?_, fun _ _ _ _ => Iff.rfl⟩
  · have hnode : ∀ y, (Spec.shown ops).node y ↔ y = idx 0 ∨ y = idx 1 := by
      intro y
      rw [hgen.nodes]
      constructor
      · rintro ⟨k, hk, rfl⟩
        rcases (by omega : k = 0 ∨ k = 1) with rfl | rfl <;> simp
      · rintro (rfl | rfl)
        exacts [⟨0, by omega, rfl⟩, ⟨1, by omega, rfl⟩]
    refine ⟨?_, ?_, ?_⟩
    · intro y hy
      rcases (hnode y).1 hy with rfl | rfl
      · simpa using hu
      · simpa [h01.symm] using hv
    · intro y hy z hz he
      rcases (hnode y).1 hy with rfl | rfl <;> rcases (hnode z).1 hz with rfl | rfl
      · rfl
      · simp [h01.symm] at he; exact absurd he huv
      · simp [h01.symm] at he; exact absurd he huv.symm
      · rfl
    · intro y hy
      rcases (by simpa using (hn3 y).1 hy : y = a ∨ y = b) with rfl | rfl
      · exact ⟨idx 0, (hnode _).2 (Or.inl rfl), by simp⟩
      · exact ⟨idx 1, (hnode _).2 (Or.inr rfl), by simp [h01.symm]⟩
  · have : {x | (Spec.shown ops).layer x} = {x | g.layer x} := by
      ext y; exact (hlay y).trans (hL3 y).symm
    rw [this]; exact Set.bijOn_id _
  · intro y i j hy hi hj
    obtain ⟨k, hk, rfl⟩ := (hgen.nodes i).1 hi
    obtain ⟨k', hk', rfl⟩ := (hgen.nodes j).1 hj
    have hyL := (hlay y).1 hy
    have key : (Spec.shown ops).link y (idx 0) (idx 1) ↔ g.link y a b := by
      rw [hlink, hmem]; exact and_iff_right hyL
    have irr : ∀ i, ¬ (Spec.shown ops).link y i i := fun i h => h.1 rfl
    rcases (by omega : k = 0 ∨ k = 1) with rfl | rfl <;> rcases (by omega : k' = 0 ∨ k' = 1) with rfl | rfl
    · simp [irr, hirr]
    · simpa [h01.symm] using key
    · simp only [id, h01.symm, if_true, if_false]
      rw [show (Spec.shown ops).link y (idx 1) (idx 0) ↔ (Spec.shown ops).link y (idx 0) (idx 1) from ⟨link_symm, link_symm⟩, key]
      exact ⟨hsym _ _ _, hsym _ _ _⟩
    · simp [irr, hirr]

/-- a graphlet without one of its nodes that can be removed -/
theorem remove_node {i : Nat} (hi : 2 ≤ i) {g : Spec.Multigraph α} (hg : Spec.Graphlet (i + 1) nl layers g)
    (hsym : ∀ x i j, g.link x i j → g.link x j i) :
    ∃ v, g.node v ∧ Spec.Graphlet i nl layers ⟨fun x => g.node x ∧ x ≠ v, g.layer, g.link⟩ ∧
      ∃ u x, g.node u ∧ u ≠ v ∧ g.layer x ∧ g.link x u v := by
  obtain ⟨ns, hn1, hn2, hn3⟩ := hg.nodes
  have hconn : Spec.LinkConnected (· ∈ ns) fun a b => ∃ x, g.layer x ∧ g.link x a b :=
    hg.connected.mono hn3 fun _ _ _ _ h => h
  obtain ⟨v, hv, hc⟩ := Spec.LinkConnected.remove hn1 (by omega) (fun a b ⟨x, h1, h2⟩ => ⟨x, h1, hsym _ _ _ h2⟩) hconn
  refine ⟨v, (hn3 v).2 hv, ⟨⟨ns.erase v, hn1.erase v, by rw [List.length_erase_of_mem hv, hn2]; omega, fun x => ?_⟩, hg.layer, ?_⟩, ?_⟩
  · rw [hn1.mem_erase_iff, ← hn3]; exact and_comm
  · exact hc.mono (fun x => by rw [← hn3]) fun _ _ _ _ h => h
  · obtain ⟨w, hw⟩ : ∃ w, w ∈ ns.erase v := List.exists_mem_of_length_pos (by rw [List.length_erase_of_mem hv]; omega)
    obtain ⟨hwv, hwn⟩ := hn1.mem_erase_iff.1 hw
    obtain ⟨a, b, ⟨h1, h2, x, h3, h4⟩, h5, h6⟩ := Spec.LinkConnected.cross (s := (· ≠ v))
      (hg.connected w v ((hn3 w).2 hwn) ((hn3 v).2 hv)) hwv (by simp)
    simp only [ne_eq, not_not] at h6
    subst h6
    exact ⟨a, x, h1, h5, h3, h4⟩

theorem forall₂_replicate {γ δ : Type} (on : γ → δ) (s : List δ) (nc : List γ) (h : ∀ k ∈ nc, on k ∈ s) :
    List.Forall₂ (· ∈ ·) (nc.map on) (List.replicate nc.length s) := by
  induction nc with
  | nil => simp
  | cons k nc ih =>
    simp only [List.map_cons, List.length_cons, List.replicate_succ]
    exact List.Forall₂.cons (h k (by simp)) (ih fun k' hk' => h k' (by simp [hk']))

theorem mem_zip_map {γ δ : Type} (on : γ → δ) (nc : List γ) (u : γ × δ) : u ∈ nc.zip (nc.map on) ↔ u.1 ∈ nc ∧ u.2 = on u.1 := by
  obtain ⟨k, l⟩ := u
  induction nc with
  | nil => simp
  | cons a nc ih =>
    simp only [List.map_cons, List.zip_cons_cons, List.mem_cons, Prod.mk.injEq, ih]
    constructor
    · rintro (⟨rfl, rfl⟩ | ⟨h1, h2⟩)
      · exact ⟨Or.inl rfl, rfl⟩
      · exact ⟨Or.inr h1, h2⟩
    · rintro ⟨rfl | h1, h2⟩
      · exact Or.inl ⟨rfl, h2⟩
      · exact Or.inr ⟨h1, h2⟩

/-- a graphlet that is an extension of one in the list by one node is one of the networks of the second loop -/
theorem cover_extension (ok : GenOk canon str allowed c idx layers) (h0 : 0 ∈ Spec.mayChange 1 allowed) {i : Nat} (hi : 2 ≤ i)
    {g : Spec.Multigraph α} {v u0 x0 : α} (hv : g.node v) (hu0 : g.node u0) (huv : u0 ≠ v) (hx0 : g.layer x0)
    (hl0 : g.link x0 u0 v) (hsym : ∀ x i j, g.link x i j → g.link x j i) (hirr : ∀ x i, ¬ g.link x i i)
    (hgen : Spec.Generated idx i nl layers ops) {f0 f1 : α → α}
    (hf : MIso (cplRel c) (Spec.mayChange 1 allowed) (Spec.shown ops) ⟨fun x => g.node x ∧ x ≠ v, g.layer, g.link⟩ f0 f1) :
    ∃ nn ∈ List.range' 1 i, ∃ nc ∈ combinations (List.range i) nn,
      ∃ lcs ∈ product (List.replicate nn (layerCombinations (pySorted ((afterP [c] false 0 true ops).slices.getD 1 [])))),
      ∃ ops', extendNet idx i (afterP [c] false 0 true ops) (pySorted ((afterP [c] false 0 true ops).slices.getD 1 [])) nc lcs =
        .ok (afterP [c] false 0 true ops') ∧ Spec.Generated idx (i + 1) nl layers ops' ∧
        ∃ f0 f1, MIso (cplRel c) (Spec.mayChange 1 allowed) (Spec.shown ops') g f0 f1 := by
  classical
  set NL := pySorted ((afterP [c] false 0 true ops).slices.getD 1 []) with hNL
  have hNLm : ∀ x, x ∈ NL ↔ (Spec.shown ops).layer x := netLayers_spec ops
  set on : Nat → List α := fun k => NL.filter fun x => decide (g.link (f1 x) (f0 (idx k)) v) with hon
  set nc := (List.range i).filter fun k => decide (on k ≠ []) with hnc
  have hmon : ∀ k x, x ∈ on k ↔ (Spec.shown ops).layer x ∧ g.link (f1 x) (f0 (idx k)) v := by
    intro k x; simp [hon, hNLm]
  have hmnc : ∀ k, k ∈ nc ↔ k < i ∧ on k ≠ [] := by intro k; simp [hnc]
  have hncs : nc.Sublist (List.range i) := List.filter_sublist
  obtain ⟨u', hu', rfl⟩ := hf.nodes.surjOn (show u0 ∈ {x | g.node x ∧ x ≠ v} from ⟨hu0, huv⟩)
  obtain ⟨k0, hk0, rfl⟩ := (hgen.nodes u').1 hu'
  obtain ⟨x', hx', rfl⟩ := hf.layers.surjOn (show x0 ∈ {x | g.layer x} from hx0)
  have hk0nc : k0 ∈ nc := (hmnc k0).2 ⟨hk0, List.ne_nil_of_mem ((hmon k0 x').2 ⟨hx', hl0⟩)⟩
  have hncne : nc ≠ [] := List.ne_nil_of_mem hk0nc
  have hzip : ∀ u : Nat × List α, u ∈ nc.zip (nc.map on) ↔ u.1 ∈ nc ∧ u.2 = on u.1 := mem_zip_map on nc
  obtain ⟨ops', e, hgen', hlay, hold, hnew⟩ := extendNet_spec (c := c) ok.idx ok.one (good_not_net ok) hgen (L := NL)
    (fun x => (hNLm x).symm) (nc := nc) (lcs := nc.map on) (fun k hk => ((hmnc k).1 hk).1) hncne (by simp) (by
      intro l hl
      obtain ⟨k, hk, rfl⟩ := List.mem_map.1 hl
      exact ⟨(List.filter_sublist).subset, ((hmnc k).1 hk).2⟩)
  refine ⟨nc.length, ?_, nc, mem_combinations.2 ⟨hncs, rfl⟩, nc.map on, ?_, ops', e, hgen', ?_⟩
  · rw [List.mem_range'_1]
    have := List.length_pos_iff.2 hncne
    have := hncs.length_le
    simp at this
    omega
  · rw [mem_product]
    exact forall₂_replicate on _ nc fun k hk => mem_layerCombinations.2 ⟨List.filter_sublist, ((hmnc k).1 hk).2⟩
  · have hidi : ∀ k, k < i → idx k ≠ idx i := fun k hk e => by have := ok.idx e; omega
    have hnode : ∀ y, (Spec.shown ops').node y ↔ (Spec.shown ops).node y ∨ y = idx i := by
      intro y
      rw [hgen'.nodes, hgen.nodes]
      constructor
      · rintro ⟨k, hk, rfl⟩
        by_cases hki : k < i
        · exact Or.inl ⟨k, hki, rfl⟩
        · exact Or.inr (by rw [show k = i by omega])
      · rintro (⟨k, hk, rfl⟩ | rfl)
        exacts [⟨k, by omega, rfl⟩, ⟨i, by omega, rfl⟩]
    have hni : ∀ y, (Spec.shown ops).node y → y ≠ idx i := by
      intro y hy
      obtain ⟨k, hk, rfl⟩ := (hgen.nodes y).1 hy
      exact hidi k hk
    refine ⟨fun y => if y = idx i then v else f0 y, f1, fun h => absurd h0 h, hf.fix1, ⟨?_, ?_, ?_⟩, ?_, ?_, ?_⟩
    · intro y hy
      rcases (hnode y).1 hy with h | rfl
      · simp only [hni y h, if_false]
        exact (hf.nodes.mapsTo h).1
      · simpa using hv
    · intro y hy z hz he
      rcases (hnode y).1 hy with h | rfl <;> rcases (hnode z).1 hz with h' | rfl
      · simp only [hni y h, hni z h', if_false] at he
        exact hf.nodes.injOn h h' he
      · simp only [hni y h, if_false, if_true] at he
        exact absurd he (hf.nodes.mapsTo h).2
      · simp only [hni z h', if_false, if_true] at he
        exact absurd he.symm (hf.nodes.mapsTo h').2
      · rfl
    · intro y hy
      by_cases hyv : y = v
      · exact ⟨idx i, (hnode _).2 (Or.inr rfl), by simp [hyv]⟩
      · obtain ⟨z, hz, rfl⟩ := hf.nodes.surjOn (show y ∈ {x | g.node x ∧ x ≠ v} from ⟨hy, hyv⟩)
        exact ⟨z, (hnode _).2 (Or.inl hz), by simp [hni z hz]⟩
    · have : {x | (Spec.shown ops').layer x} = {x | (Spec.shown ops).layer x} := Set.ext hlay
      rw [this]; exact hf.layers
    · intro x a b hx ha hb
      have hx' := (hlay x).1 hx
      have key : ∀ z, (Spec.shown ops).node z → ((Spec.shown ops').link x z (idx i) ↔ g.link (f1 x) (f0 z) v) := by
        intro z hz
        obtain ⟨k, hk, rfl⟩ := (hgen.nodes z).1 hz
        rw [hnew x k hk]
        constructor
        · rintro ⟨u, h1, rfl, h2⟩
          rw [((hzip u).1 h1).2, hmon] at h2
          exact h2.2
        · intro h
          have hm := (hmon k x).2 ⟨hx', h⟩
          exact ⟨(k, on k), (hzip _).2 ⟨(hmnc k).2 ⟨hk, List.ne_nil_of_mem hm⟩, rfl⟩, rfl, hm⟩
      rcases (hnode a).1 ha with h | rfl <;> rcases (hnode b).1 hb with h' | rfl
      · simp only [hni a h, hni b h', if_false]
        rw [hold x a b ((hgen.nodes a).1 h) ((hgen.nodes b).1 h')]
        exact hf.links x a b hx' h h'
      · simp only [hni a h, if_false, if_true]
        exact key a h
      · simp only [hni b h', if_false, if_true]
        rw [show (Spec.shown ops').link x (idx i) b ↔ (Spec.shown ops').link x b (idx i) from ⟨link_symm, link_symm⟩, key b h']
        exact ⟨hsym _ _ _, hsym _ _ _⟩
      · simp only [if_true]
        exact iff_of_false (fun h => h.1 rfl) (hirr _ _)
    · intro x y hx hy
      exact hf.coupled x y ((hlay x).1 hx) ((hlay y).1 hy)

/-! ### the whole function -/

/-- A stored network with its place. -/
def Stored (nets : Dict Nat (List (MPlex α W))) (m k : Nat) (p : MPlex α W) : Prop :=
  ∃ l, Dict.get nets m = some l ∧ l[k]? = some p

variable (canon str allowed) in
/-- Internal: the state after the networks with up to `i` nodes have been collected. -/
structure NInv (c : Coupling α W) (idx : Nat → α) (nl : Nat) (layers : List α) (i : Nat)
    (st : Dict Nat (List (MPlex α W)) × Dict σ (Nat × Nat)) : Prop where
  keys : ∀ m, (Dict.get st.1 m).isSome = true ↔ 2 ≤ m ∧ m ≤ i
  gen : ∀ m k p, Stored st.1 m k p → IsGen c idx nl layers m p
  inv : ∀ key m k, Dict.get st.2 key = some (m, k) ↔
    ∃ p, Stored st.1 m k p ∧ p.invariantKey canon str allowed = .ok key
  all : 0 ∈ Spec.mayChange 1 allowed → ∀ m, 2 ≤ m → m ≤ i → ∀ g, Spec.Graphlet m nl layers g →
    (∀ x i j, g.link x i j → g.link x j i) → (∀ x i, ¬ g.link x i i) →
    ∃ k ops, Stored st.1 m k (afterP [c] false 0 true ops) ∧ Spec.Generated idx m nl layers ops ∧
      ∃ f0 f1, MIso (cplRel c) (Spec.mayChange 1 allowed) (Spec.shown ops) g f0 f1

omit [LawfulIntNames α] [LinearOrder α] [DecidableEq α] [DecidableEq W] in
theorem gen_card (hi : Function.Injective idx) (hg : Spec.Generated idx m nl layers ops)
    (hg' : Spec.Generated idx m' nl layers ops') {f : α → α}
    (hf : Set.BijOn f {x | (Spec.shown ops).node x} {x | (Spec.shown ops').node x}) : m = m' := by
  have card : ∀ {m} {ops : List (POp α W)}, Spec.Generated idx m nl layers ops → {x | (Spec.shown ops).node x}.ncard = m := by
    intro m ops h
    have : {x | (Spec.shown ops).node x} = idx '' (Set.Iio m) := by
      ext x
      simp only [Set.mem_setOf_eq, h.nodes, Set.mem_image, Set.mem_Iio]
      exact exists_congr fun k => and_congr_right fun _ => eq_comm
    rw [this, Set.ncard_image_of_injective _ hi, ← Finset.coe_Iio, Set.ncard_coe_finset, Nat.card_Iio]
  rw [← card hg, ← card hg', ← hf.image_eq, Set.ncard_image_of_injOn hf.injOn]

/-- After the networks of one size are collected. -/
theorem collected (ok : GenOk canon str allowed c idx layers) {i : Nat} (hi : 1 ≤ i)
    {nets : Dict Nat (List (MPlex α W))} (hkeys : ∀ m, (Dict.get nets m).isSome = true ↔ 2 ≤ m ∧ m ≤ i)
    (hgen : ∀ m k p, Stored nets m k p → IsGen c idx nl layers m p)
    (hall : 0 ∈ Spec.mayChange 1 allowed → ∀ m, 2 ≤ m → m ≤ i → ∀ g, Spec.Graphlet m nl layers g →
      (∀ x i j, g.link x i j → g.link x j i) → (∀ x i, ¬ g.link x i i) →
      ∃ k ops, Stored nets m k (afterP [c] false 0 true ops) ∧ Spec.Generated idx m nl layers ops ∧
        ∃ f0 f1, MIso (cplRel c) (Spec.mayChange 1 allowed) (Spec.shown ops) g f0 f1)
    {st : GenState α W σ} (hst : GInv canon str allowed c idx nl layers (Stored nets) (i + 1) st)
    (hcov : 0 ∈ Spec.mayChange 1 allowed → ∀ g, Spec.Graphlet (i + 1) nl layers g →
      (∀ x i j, g.link x i j → g.link x j i) → (∀ x i, ¬ g.link x i i) →
      ∃ key ops, (Dict.get st.invariants key).isSome = true ∧ Spec.Generated idx (i + 1) nl layers ops ∧
        (afterP [c] false 0 true ops).invariantKey canon str allowed = .ok key ∧
        ∃ f0 f1, MIso (cplRel c) (Spec.mayChange 1 allowed) (Spec.shown ops) g f0 f1) :
    NInv canon str allowed c idx nl layers (i + 1) (Dict.set nets (i + 1) st.found, st.invariants) := by
  have hst1 : ∀ m k p, Stored (Dict.set nets (i + 1) st.found) m k p ↔
      Stored nets m k p ∨ (m = i + 1 ∧ st.found[k]? = some p) := by
    intro m k p
    unfold Stored
    by_cases hm : i + 1 = m
    · subst hm
      have : Dict.get nets (i + 1) = none := by
        rw [← Option.not_isSome_iff_eq_none, hkeys]; omega
      simp [Dict.get_set, this]
    · simp [Dict.get_set_ne _ _ hm, Ne.symm hm]
  have hgen1 : ∀ m k p, Stored (Dict.set nets (i + 1) st.found) m k p → IsGen c idx nl layers m p := by
    intro m k p h
    rcases (hst1 m k p).1 h with h | ⟨rfl, h'⟩
    · exact hgen m k p h
    · exact hst.gen p (List.mem_of_getElem? h')
  refine ⟨fun m => ?_, hgen1, fun key m k => ?_, fun h0 m h2 hm g hg hsym hirr => ?_⟩
  · dsimp only
    rw [Dict.get_set]
    split
    · rename_i h; subst h; simp; omega
    · rename_i h; rw [hkeys]; omega
  · dsimp only
    rw [hst.inv]
    exact exists_congr fun p => and_congr_left fun _ => (hst1 m k p).symm
  · dsimp only
    by_cases hmi : m ≤ i
    · obtain ⟨k, ops, h1, h3⟩ := hall h0 m h2 hmi g hg hsym hirr
      exact ⟨k, ops, (hst1 _ _ _).2 (Or.inl h1), h3⟩
    · obtain rfl : m = i + 1 := by omega
      obtain ⟨key, ops, h1, h2', h3, f0, f1, hf⟩ := hcov h0 g hg hsym hirr
      obtain ⟨⟨m', k⟩, hmk⟩ := Option.isSome_iff_exists.1 h1
      obtain ⟨p, hp, hpk⟩ := (hst.inv key m' k).1 hmk
      have hpS := (hst1 m' k p).2 hp
      obtain ⟨ops', rfl, hg'⟩ := hgen1 _ _ _ hpS
      obtain ⟨k1, k2, e1, e2, hiff⟩ := gen_keys ok hg' h2'
      rw [hpk] at e1; cases e1
      rw [h3] at e2; cases e2
      have hiso := hiff.1 rfl
      have hm' : 2 ≤ m' := by
        rcases hp with ⟨l, hl, -⟩ | ⟨h, -⟩
        · exact ((hkeys m').1 (by rw [hl]; rfl)).1
        · omega
      rw [isomorphic_iff (gen_node hg' hm') (gen_layer hg' ok.idx hm')] at hiso
      obtain ⟨e0, e1, he⟩ := hiso
      obtain rfl := gen_card ok.idx hg' h2' he.nodes
      exact ⟨k, ops', hpS, hg', _, _, he.trans hf⟩

theorem graphlets_main (ok : GenOk canon str allowed c idx layers) (n : Nat) (nl : Option Nat) :
    ∃ nets inv, graphlets canon str allowed [c] idx n layers nl = .ok (nets, inv) ∧
      NInv canon str allowed c idx (nl.getD layers.length) layers (max n 2) (nets, inv) := by
  set L := nl.getD layers.length
  -- two nodes
  have hbase : ∃ g, pairNets canon str allowed [c] idx layers L = .ok g ∧
      NInv canon str allowed c idx L layers 2 (Dict.set [] 2 g.found, g.invariants) := by
    obtain ⟨g, e, h1, -, h3⟩ := runs_pairs (old := Stored []) (nl := L) ok ⟨[], []⟩ ⟨by simp, by simp [Stored]⟩
    refine ⟨g, e, collected (i := 1) ok (by omega) (by intro m; simp; omega) (by simp [Stored]) (by omega) h1 ?_⟩
    intro h0 g' hg' hsym hirr
    obtain ⟨NL, hNL, lc, hlc, ops, e1, hgen, hiso⟩ := cover_pair ok h0 hg' hsym hirr
    obtain ⟨key, -, hk, -⟩ := gen_keys ok hgen hgen
    exact ⟨key, ops, h3 key ⟨NL, hNL, lc, hlc, _, e1, hk⟩, hgen, hk, hiso⟩
  obtain ⟨g, e, hg⟩ := hbase
  unfold graphlets
  rw [e]
  dsimp only
  obtain ⟨⟨nets, inv⟩, e', h'⟩ := forE_ok (f := nextSize canon str allowed idx)
    (s := (Dict.set [] 2 g.found, g.invariants))
    (P := fun pre st => NInv canon str allowed c idx L layers (2 + pre.length) st) (List.range' 2 (n - 2)) hg (by
      rintro pre i post ⟨nets, inv⟩ hl hst
      have hi : i = 2 + pre.length := by
        have := congrArg (·[pre.length]?) hl
        simp only [List.getElem?_append_right (le_refl _), Nat.sub_self, List.getElem?_cons_zero] at this
        obtain ⟨h1, h2⟩ := List.getElem?_eq_some_iff.1 this
        rw [← h2, List.getElem_range']; omega
      subst hi
      set i := 2 + pre.length with hi
      obtain ⟨l, hl⟩ := Option.isSome_iff_exists.1 ((hst.keys i).2 ⟨by omega, by omega⟩)
      have hgl : ∀ p ∈ l, IsGen c idx L layers i p := by
        intro p hp
        obtain ⟨k, hk⟩ := List.getElem?_of_mem hp
        exact hst.gen i k p ⟨l, hl, hk⟩
      have hruns : Runs canon str allowed c idx L layers (Stored nets) (i + 1)
          (forE (extensions canon str allowed idx i) l) (fun key => ∃ p ∈ l, ExtKey canon str allowed idx i p key) :=
        Runs.forE l fun p hp => by
          obtain ⟨ops, rfl, hgo⟩ := hgl p hp
          exact runs_extensions ok (by omega) hgo
      have hst0 : GInv canon str allowed c idx L layers (Stored nets) (i + 1) ⟨inv, []⟩ :=
        ⟨by simp, fun key m k => by simpa using hst.inv key m k⟩
      obtain ⟨g', e', h1, -, h3⟩ := hruns _ hst0
      refine ⟨(Dict.set nets (i + 1) g'.found, g'.invariants), ?_, ?_⟩
      · unfold nextSize
        dsimp only
        rw [hl]
        dsimp only
        rw [e']
      · rw [List.length_append, List.length_singleton, ← Nat.add_assoc, ← hi]
        refine collected ok (by omega) hst.keys hst.gen hst.all h1 ?_
        intro h0 g1 hg1 hsym hirr
        obtain ⟨v, hv, hgv, u, x, hu, huv, hx, hux⟩ := remove_node (by omega) hg1 hsym
        obtain ⟨k, ops, ⟨l', hl', hlk⟩, hgo, f0, f1, hf⟩ := hst.all h0 i (by omega) (by omega) _ hgv
          (fun x a b => hsym x a b) (fun x a => hirr x a)
        have hll : l' = l := by
          have := hl'.symm.trans hl
          cases this; rfl
        subst hll
        obtain ⟨nn, hnn, nc, hnc, lcs, hlcs, ops', e1, hgen, hiso⟩ :=
          cover_extension ok h0 (by omega) hv hu huv hx hux hsym hirr hgo hf
        obtain ⟨key, -, hk, -⟩ := gen_keys ok hgen hgen
        exact ⟨key, ops', h3 key ⟨_, List.mem_of_getElem? hlk, nn, hnn, nc, hnc, lcs, hlcs, _, e1, hk⟩, hgen, hk, hiso⟩)
  refine ⟨nets, inv, e', ?_⟩
  rw [show max n 2 = 2 + (List.range' 2 (n - 2)).length by simp; omega]
  exact h'

end Pymnet
