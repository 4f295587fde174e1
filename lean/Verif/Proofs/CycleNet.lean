import Verif.Model.Cycles
import Verif.Spec.Cycles
import Verif.Proofs.ClusteringPlex2

/-! What the cycle counting functions read from a multiplex network with categorical couplings. -/

set_option linter.unusedSectionVars false
set_option linter.unusedSimpArgs false

namespace Pymnet

open Py MPlex

variable {α W : Type} [DecidableEq α] [DecidableEq W] [Zero W]

theorem mapE_map {β γ δ : Type} {f : γ → Except Err δ} {g : β → γ} {h : β → δ} {l : List β}
    (e : ∀ x ∈ l, f (g x) = .ok (h x)) : mapE f (l.map g) = .ok (l.map h) := by
  induction l with
  | nil => rfl
  | cons a t ih =>
    simp only [List.map_cons, mapE, e a (by simp), ih fun x hx => e x (by simp [hx])]

theorem names_eq {v : View α W} {n : α} {l : List α} (h : v.neighbors [n] = .ok (l.map fun x => [x])) :
    v.names n = .ok l := by
  unfold View.names
  rw [h, ok_bind]
  refine (mapE_map (f := View.name1) (g := fun x => [x]) (h := id) fun x _ => rfl).trans ?_
  rw [List.map_id]

/-- What the cycle counting functions read from a multiplex network with one aspect and categorical couplings: nodes `N`,
layers `B`, nodes `M l` of each layer, weights. -/
structure CycL [IntNames α] (p : MPlex α W) (N B : Finset α) (M : α → Finset α) (A : α → α → α → W) : Prop where
  base : PlexL p N B M A
  fic : p.fic = true → ∀ l ∈ B, M l = N
  child : ∀ l ∈ B, ∃ c, p.layerNet l = .ok c ∧ Mono c.view (M l) (fun i j => A i j l) ∧ c.view.noEdge = 0 ∧
    ∀ i, ∃ ns : List α, c.view.names i = .ok ns ∧ c.view.neighbors [i] = .ok (ns.map fun x => [x]) ∧ ns.Nodup ∧
      (∀ x, x ∈ ns ↔ A i x l ≠ 0) ∧ c.view.itemDeg [i] = .ok (ns.length : Int)
  inner : ∀ l ∈ B, ∀ i, ∃ ns : List α, p.view.layerNeighbors i l = .ok ns ∧ ns.Nodup ∧ (∀ x, x ∈ ns ↔ A i x l ≠ 0) ∧
    p.view.sliceDeg [.val i, .colon, .val l, .val l] = .ok (ns.length : Int)
  coup : ∀ l ∈ B, ∀ i, ∃ ls : List α, p.view.couplingLayers i l = .ok ls ∧ ls.Nodup ∧ (∀ x ∈ ls, x ∈ B ∧ x ≠ l) ∧
    (i ∈ M l → (∀ x, x ∈ ls ↔ x ∈ B ∧ x ≠ l ∧ i ∈ M x) ∧
      p.view.sliceDeg [.val i, .val i, .val l, .colon] = .ok (ls.length : Int))
  num2 : ∀ l ∈ B, ∀ i j, p.view.num2 [i, l] [j, l] = .ok (A i j l)
  num4 : ∀ l ∈ B, ∀ i j, p.view.num [i, j, l, l] = .ok (A i j l)
  numC : ∀ l ∈ B, ∀ l' ∈ B, l ≠ l' → ∀ i, ∃ x, p.view.num [i, i, l, l'] = .ok x ∧ (x ≠ 0 ↔ i ∈ M l ∧ i ∈ M l')

theorem addr4 {v : View α W} (h : v.aspects = 1) (i j l l' : α) : Spec.Addresses v.aspects [i, j, l, l'] [i, l] [j, l'] := by
  have := addresses_interleave (aspects := v.aspects) (a := [i, l]) (b := [j, l']) (by rw [h]; rfl) (by rw [h]; rfl)
  exact this

theorem getItem_inner {v : View α W} (h : v.aspects = 1) (i l : α) :
    v.getItem [.val i, .colon, .val l, .val l] = .ok (.node [i, l] (some [none, some l])) := by
  unfold View.getItem
  simp only [h, List.length_cons, List.length_nil]
  rfl

theorem getItem_coup {v : View α W} (h : v.aspects = 1) (i l : α) :
    v.getItem [.val i, .val i, .val l, .colon] = .ok (.node [i, l] (some [some i, none])) := by
  unfold View.getItem
  simp only [h, List.length_cons, List.length_nil]
  rfl

theorem cycL [LawfulIntNames α] {w : W} (hw : w ≠ 0) {aligned : Bool}
    {ops : List (POp α W)} (hs : Spec.NoIntraSelf ops) {N B : Finset α} {M : α → Finset α}
    (hN : ∀ x, x ∈ N ↔ Spec.Happened (Spec.NamesNodeP 1 aligned x) ops)
    (hB : ∀ x, x ∈ B ↔ ∃ op ∈ ops, Spec.NamesLayerP 1 aligned 1 x op)
    (hM : ∀ l ∈ B, ∀ x, x ∈ M l ↔ Spec.HasNodeLayer 1 aligned ops [x, l]) :
    CycL (afterP [.categorical w] false 0 aligned ops) N B M fun i j l => Spec.readP 1 false aligned ops [l] i j := by
  have hP := plexL (c := .categorical w) hs hN hB hM
  have hcs : [Coupling.categorical w] ≠ ([] : List (Coupling α W)) := by simp
  have hpar := after_params hcs false 0 aligned ops
  have hp := after_pinv hcs false 0 aligned ops
  obtain ⟨s0, s1, s2, s3, s4⟩ := after_spec hcs false 0 aligned ops
  have hI : ∀ i j, ∀ l ∈ B, (afterP [.categorical w] false 0 aligned ops).getLink [i, j, l, l] =
      .ok (Spec.readP 1 false aligned ops [l] i j) := by
    intro i j l hl
    by_cases hij : i = j
    · subst hij
      rw [hP.self]
      refine (getLink_self (p := afterP [.categorical w] false 0 aligned ops) [i, l]).trans ?_
      rw [hP.ne]
    · refine after_intra hcs false 0 aligned ops (i := i) (j := j) (s := [l]) hij ?_
      refine ⟨[l], rfl, rfl, fun k x hx => ?_⟩
      cases k with
      | zero => simp at hx; subst hx; exact (hB _).1 hl
      | succ k => simp at hx
  set p := afterP [.categorical w] false 0 aligned ops with hpd
  simp only [List.length_cons, List.length_nil, Nat.zero_add] at hpar s0 s1 s2 s3 s4
  obtain ⟨h1, h2, h3, h4, h5⟩ := hpar
  have hdir : p.view.directed = false := h2
  have hkids : ∀ l ∈ B, ∃ c, p.child? (.el l) = some c := fun l hl => by
    obtain ⟨c, hc, -, -⟩ := hP.kids l hl; exact ⟨c, hc⟩
  have hkid : ∀ l ∈ B, ∀ c, p.child? (.el l) = some c → ∀ x, x ∈ c.slices.headD [] ↔ x ∈ M l := by
    intro l hl c hc x
    obtain ⟨c', hc', hm, -⟩ := hP.kids l hl
    rw [hc] at hc'; cases hc'
    exact hm.mem x
  have hficM : p.fic = true → ∀ l ∈ B, M l = N := by
    intro hf l hl
    obtain ⟨c, hc⟩ := hkids l hl
    ext x
    rw [← hkid l hl c hc]
    have := fic_kid hf (.el l) x
    rw [hc] at this
    simp only [Option.isSome_some, true_and] at this
    have e2 : p.kid (.el l) x ↔ x ∈ c.slices.headD [] := by simp [kid, hc]
    rw [← e2, this, ← hP.lay.mem]
    rfl
  have hneigh : ∀ l ∈ B, ∀ c, p.child? (.el l) = some c → ∀ i, ∃ ns : List α, c.view.neighbors [i] = .ok (ns.map fun x => [x]) ∧
      ns.Nodup ∧ (∀ x, x ∈ ns ↔ Spec.readP 1 false aligned ops [l] i x ≠ 0) ∧ c.view.itemDeg [i] = .ok (ns.length : Int) ∧
      c.iterOut [i] none = ns.map (fun x => [x]) ∧ c.degOut [i] none = ns.length := by
    intro l hl c hc i
    obtain ⟨c', hc', hm, h0⟩ := hP.kids l hl
    rw [hc] at hc'; cases hc'
    obtain ⟨ns, n1, n2, n3, n4⟩ := hm.neigh i
    rw [show c.view.noEdge = 0 from h0] at n3
    have hk := hp.core.kids _ _ hc
    have hcd : c.directed = false := by rw [hk.dir]; exact h2
    have e1 : c.view.neighbors [i] = .ok (c.iterOut [i] none) := by
      rw [View.neighbors_eq (by rw [show c.view.aspects = 0 from hk.asp]; rfl)]
      change Except.ok (c.iterTotal [i] none) = _
      unfold MNet.iterTotal
      rw [hcd]; rfl
    have e2 : c.view.itemDeg [i] = .ok ((c.degOut [i] none : Nat) : Int) := by
      unfold View.itemDeg View.getItem
      rw [show c.view.aspects = 0 from hk.asp]
      simp only [List.map_cons, List.map_nil, List.length_cons, List.length_nil, if_true]
      change Except.ok (c.deg [i] none) = _
      unfold MNet.deg
      rw [hcd]; rfl
    refine ⟨ns, n1, n2, fun x => ?_, n4, ?_, ?_⟩
    · rw [n3]
      exact ⟨fun h => h.2, fun h => ⟨hP.on i x l hl h, h⟩⟩
    · exact Except.ok.inj (e1.symm.trans n1)
    · rw [e2] at n4
      have := Except.ok.inj n4
      exact_mod_cast this
  have hnum4 : ∀ l ∈ B, ∀ i j, p.view.num [i, j, l, l] = .ok (Spec.readP 1 false aligned ops [l] i j) := fun l hl i j =>
    View.num_eq (addr4 h1 i j l l) (hI i j l hl)
  refine ⟨hP, hficM, ?_, ?_, ?_, ?_, hnum4, ?_⟩
  · intro l hl
    obtain ⟨c, hc, hm, h0⟩ := hP.kids l hl
    refine ⟨c, by unfold layerNet; rw [hc], hm, h0, fun i => ?_⟩
    obtain ⟨ns, n1, n2, n3, n4, -⟩ := hneigh l hl c hc i
    exact ⟨ns, names_eq n1, n1, n2, n3, n4⟩
  · intro l hl i
    obtain ⟨c, hc⟩ := hkids l hl
    obtain ⟨ns, n1, n2, n3, n4, n5, n6⟩ := hneigh l hl c hc i
    have hsel : p.selectDimensions [i, l] (some [none, some l]) = [0] := by
      simp [selectDimensions, freeDims]
    refine ⟨ns, ?_, n2, n3, ?_⟩
    · unfold View.layerNeighbors View.iterPairs
      rw [getItem_inner h1]
      have e : p.view.iterTotal [i, l] (some [none, some l]) = .ok (ns.map fun x => [x, l]) := by
        change (if p.directed then _ else p.iterOut _ _) = _
        rw [h2]
        simp only [iterOut, hsel, View.collect, intra, onChild, if_true, LKey.ofList, hc, n5, Bool.false_eq_true, if_false]
        simp
      simp only [e, ok_bind]
      rw [mapE_map (f := View.pair2) (g := fun x => [x, l]) (h := fun x => (x, l)) fun x _ => rfl]
      simp [pure_eq_ok, ok_bind, Function.comp_def]
    · unfold View.sliceDeg
      rw [getItem_inner h1]
      change (if p.directed then _ else p.degOut _ _) = _
      rw [h2]
      simp only [degOut, hsel, sumDims, onChild, if_true, LKey.ofList, hc, n6, Bool.false_eq_true, if_false, zero_add]
  · intro l hl i
    obtain ⟨c, hc⟩ := hkids l hl
    have hcoup : p.couplings[0]? = some (.categorical w) := by rw [h5]; rfl
    obtain ⟨l0, hl1, hl2, hl3⟩ := hP.lay.layers
    have hsl : p.slices[1]? = some l0 := by
      unfold View.layers1 at hl1
      change (match p.slices[1]? with | none => _ | some l => _) = _ at hl1
      cases hq : p.slices[1]? with
      | none => rw [hq] at hl1; cases hl1
      | some x => rw [hq] at hl1; cases hl1; rfl
    have hsel : p.selectDimensions [i, l] (some [some i, none]) = [1] := by
      simp [selectDimensions, freeDims]
    have key : ∀ ls : List α, p.iterDim [i, l] 1 = .ok (ls.map fun x => [i, x]) →
        p.view.couplingLayers i l = .ok ls := by
      intro ls hls
      unfold View.couplingLayers View.iterPairs
      rw [getItem_coup h1]
      have e : p.view.iterTotal [i, l] (some [some i, none]) = .ok (ls.map fun x => [i, x]) := by
        change (if p.directed then _ else p.iterOut _ _) = _
        rw [h2]
        simp [iterOut, hsel, View.collect, hls]
      simp only [e, ok_bind]
      rw [mapE_map (f := View.pair2) (g := fun x => [i, x]) (h := fun x => (i, x)) fun x _ => rfl]
      simp [pure_eq_ok, ok_bind, Function.comp_def]
    have key2 : ∀ k : Int, p.dimDegree [i, l] 1 .out = .ok k →
        p.view.sliceDeg [.val i, .val i, .val l, .colon] = .ok k := by
      intro k hk
      unfold View.sliceDeg
      rw [getItem_coup h1]
      change (if p.directed then _ else p.degOut _ _) = _
      rw [h2]
      simp [degOut, hsel, sumDims, hk]
    by_cases hf : p.fic = true
    · refine ⟨l0.filter (· ≠ l), key _ ?_, hl2.filter _, ?_, ?_⟩
      · unfold iterDim
        simp [hcoup, hf, hsl, replaceAt]
      · intro x hx
        rw [List.mem_filter, hl3] at hx
        simpa using hx
      · intro hi
        refine ⟨fun x => ?_, key2 _ ?_⟩
        · rw [List.mem_filter, hl3]
          constructor
          · rintro ⟨a, b⟩
            refine ⟨a, by simpa using b, ?_⟩
            rw [hficM hf x a, ← hficM hf l hl]; exact hi
          · rintro ⟨a, b, -⟩
            exact ⟨a, by simpa using b⟩
        · unfold dimDegree
          have hlen : (l0.filter (· ≠ l)).length + 1 = l0.length := by
            have := hl2.erase_eq_filter l
            have h6 := List.length_erase_of_mem ((hl3 l).2 hl)
            rw [this] at h6
            have h7 : 0 < l0.length := List.length_pos_of_mem ((hl3 l).2 hl)
            have e8 : (l0.filter (· ≠ l)) = l0.filter (fun x => x != l) := by
              apply List.filter_congr; intro x _; by_cases hx : x = l <;> simp [hx]
            rw [e8]; omega
          simp only [Nat.sub_self, hcoup, hf, if_true, hsl]
          congr 1
          omega
    · have hf' : p.fic = false := by simpa using hf
      by_cases hi : i ∈ M l
      · have hreg : ∀ l' ∈ B, (i ∈ M l' ↔ p.reg i (.el l')) := by
          intro l' hl'
          obtain ⟨c', hc'⟩ := hkids l' hl'
          rw [← hp.regs hf' (.el l') i (by rw [hc']; rfl), ← hkid l' hl' c' hc']
          simp [kid, hc']
        have hr := (hreg l hl).1 hi
        unfold reg at hr
        cases hg : Dict.get p.nodeToLayers i with
        | none => rw [hg] at hr; simp at hr
        | some ks =>
          have hks : ∀ L, L ∈ ks ↔ p.reg i L := by intro L; simp [reg, hg]
          have hel : ∀ L ∈ ks, ∃ x, L = .el x ∧ x ∈ B := by
            intro L hL
            obtain ⟨-, h2'⟩ := hp.rkey i L ((hks L).1 hL)
            rcases h2' with h2' | h2'
            · have := (s2 L).1 h2'
              obtain ⟨s, e1, e2, e3⟩ := this
              match s, e2 with
              | [x], _ => exact ⟨x, e1, (hB x).2 (e3 0 x rfl)⟩
            · have := h2'.1; rw [h1] at this; omega
          have hnd : ks.Nodup := by
            have := hp.core.rnodup i
            rwa [hg] at this
          obtain ⟨xs, rfl⟩ : ∃ xs : List α, ks = xs.map .el := by
            clear hks hnd hg hr
            induction ks with
            | nil => exact ⟨[], rfl⟩
            | cons a t ih =>
              obtain ⟨x, rfl, -⟩ := hel a (by simp)
              obtain ⟨xs, rfl⟩ := ih fun L hL => hel L (by simp [hL])
              exact ⟨x :: xs, rfl⟩
          have hxs : xs.Nodup := List.Nodup.of_map _ hnd
          have hxm : ∀ x, x ∈ xs ↔ x ∈ B ∧ i ∈ M x := by
            intro x
            have e : LKey.el x ∈ xs.map LKey.el ↔ x ∈ xs := by simp
            constructor
            · intro hx
              obtain ⟨y, e', hy⟩ := hel _ (e.2 hx)
              cases e'
              exact ⟨hy, (hreg x hy).2 ((hks _).1 (e.2 hx))⟩
            · rintro ⟨hx, hm⟩
              exact e.1 ((hks _).2 ((hreg x hx).1 hm))
          refine ⟨xs.filter (· ≠ l), key _ ?_, hxs.filter _, ?_, fun _ => ⟨?_, key2 _ ?_⟩⟩
          · unfold iterDim
            simp only [Nat.sub_self, hcoup, hf', Bool.false_eq_true, if_false, LKey.ofList, hc]
            rw [if_pos ((hkid l hl c hc i).2 hi), hg]
            simp only [List.filter_map, List.map_map]
            congr 1
            rw [show (fun L => i :: LKey.toList L) ∘ LKey.el = fun x => [i, x] from rfl]
            congr 1
            apply List.filter_congr
            intro x _
            simp
          · intro x hx
            rw [List.mem_filter, hxm] at hx
            exact ⟨hx.1.1, by simpa using hx.2⟩
          · intro x
            rw [List.mem_filter, hxm]
            constructor
            · rintro ⟨⟨a, b⟩, c⟩; exact ⟨a, by simpa using c, b⟩
            · rintro ⟨a, b, c⟩; exact ⟨⟨a, c⟩, by simpa using b⟩
          · unfold dimDegree
            have hlm : l ∈ xs := (hxm l).2 ⟨hl, hi⟩
            have hlen : (xs.filter (· ≠ l)).length + 1 = xs.length := by
              have := hxs.erase_eq_filter l
              have h6 := List.length_erase_of_mem hlm
              rw [this] at h6
              have h7 : 0 < xs.length := List.length_pos_of_mem hlm
              have e8 : (xs.filter (· ≠ l)) = xs.filter (fun x => x != l) := by
                apply List.filter_congr; intro x _; by_cases hx : x = l <;> simp [hx]
              rw [e8]; omega
            have hlm' : LKey.ofList [l] ∈ xs.map LKey.el := by simpa [LKey.ofList] using hlm
            simp only [Nat.sub_self, hcoup, hf', Bool.false_eq_true, if_false, hg, hlm', if_true, h1]
            congr 1
            rw [List.length_map]
            omega
      · refine ⟨[], key _ ?_, by simp, by simp, fun h => absurd h hi⟩
        unfold iterDim
        simp only [Nat.sub_self, hcoup, hf', Bool.false_eq_true, if_false, LKey.ofList, hc]
        rw [if_neg (by rw [hkid l hl c hc i]; exact hi)]
        rfl
  · intro l hl i j
    exact View.num2_eq (by rw [show p.view.aspects = 1 from h1]; rfl) (by rw [show p.view.aspects = 1 from h1]; rfl)
      (hI i j l hl)
  · intro l hl l' hl' hll i
    obtain ⟨c, hc⟩ := hkids l hl
    obtain ⟨c', hc'⟩ := hkids l' hl'
    have hcoup : p.couplings[0]? = some (.categorical w) := by rw [h5]; rfl
    have hg : p.getLink [i, i, l, l'] = .ok (if i ∈ M l ∧ i ∈ M l' then w else 0) := by
      unfold getLink
      have e : interAspects [i, i, l, l'] 0 = [1] := by simp [interAspects, hll]
      rw [e]
      simp only [getInter]
      have hn : i ∈ p.slices.headD [] ↔ i ∈ N := hP.lay.mem i
      by_cases hiN : i ∈ N
      · rw [if_neg (by rw [hn]; simpa using hiN)]
        by_cases hf : p.fic = true
        · have ha : i ∈ M l := by rw [hficM hf l hl]; exact hiN
          have hb : i ∈ M l' := by rw [hficM hf l' hl']; exact hiN
          simp [ha, hb, hf, hcoup, couplingRead]
        · have hf' : p.fic = false := by simpa using hf
          simp only [hf', Bool.false_eq_true, if_false, onBoth, evens, odds, LKey.ofList, hc, hc', hkid l hl c hc,
            hkid l' hl' c' hc']
          by_cases ha : i ∈ M l
          · rw [if_pos ha]
            by_cases hb : i ∈ M l'
            · simp [ha, hb, hcoup, couplingRead]
            · simp [ha, hb, hP.ne]
          · rw [if_neg ha]
            simp [ha, hP.ne]
      · rw [if_pos (by rw [hn]; exact hiN), if_neg (fun h => hiN (hP.sub l hl h.1)), hP.ne]
    refine ⟨_, View.num_eq (addr4 h1 i i l l') hg, ?_⟩
    by_cases h : i ∈ M l ∧ i ∈ M l'
    · rw [if_pos h]; exact ⟨fun _ => h, fun _ => hw⟩
    · rw [if_neg h]; simp [h]

end Pymnet
