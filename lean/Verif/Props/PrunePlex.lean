import Verif.Props.Prune
import Verif.Props.LawsPlex

/-! C95 for multiplex networks that are not node-aligned. -/

set_option linter.unusedSectionVars false

namespace Pymnet

open Py MPlex

variable {α W : Type} [DecidableEq α] [DecidableEq W]

variable [CommRing W] [LinearOrder W] [IsStrictOrderedRing W] [LawfulIntNames α]
  {pop : List (QEntry α W) → QEntry α W × List (QEntry α W)} {aasp : List Nat} {sources : List (List (Option α))}

/-- Internal: a node that is on some layer has the degree 0 on the layers it is not on. -/
theorem deg_absent {c : W} {ops : List (POp α W)} {n x t : α} (hn : Spec.HasNodeLayer 1 false ops [n, t])
    (hx : ∃ op ∈ ops, Spec.NamesLayerP 1 false 1 x op) (hnot : ¬ Spec.HasNodeLayer 1 false ops [n, x]) :
    (afterP [.categorical c] false 0 false ops).view.deg [n, x] none = .ok 0 := by
  have hcs : ([.categorical c] : List (Coupling α W)) ≠ [] := by simp
  have hpar := after_params hcs false 0 false ops
  have hpi := after_pinv hcs false 0 false ops
  obtain ⟨-, -, s2, s3, -⟩ := after_spec hcs false 0 false ops
  set p := afterP [.categorical c] false 0 false ops with hp
  have puts : ∀ y, Spec.HasNodeLayer 1 false ops [n, y] ↔ p.kid (.ofList [y]) n := by
    intro y
    rw [s3 rfl [y] n rfl]
    constructor
    · rintro ⟨n', s, e, -, ⟨h, -⟩ | ⟨-, h⟩⟩
      · cases h
      · cases e; exact h
    · intro h; exact ⟨n, [y], rfl, rfl, Or.inr ⟨rfl, h⟩⟩
  have hL : Spec.HasLayer 1 false ops (.ofList [x]) := ⟨[x], rfl, rfl, by
    rintro (_ | k) y hy
    · simp at hy; subst hy; exact hx
    · simp at hy⟩
  obtain ⟨k, hk⟩ := Option.isSome_iff_exists.1 ((s2 _).2 hL)
  have hkk := hpi.core.kids _ _ hk
  have hkt : (p.child? (.ofList [t])).isSome = true := by
    obtain ⟨k', h, -⟩ := (puts t).1 hn
    rw [h]; rfl
  have hregt : p.reg n (.ofList [t]) := (hpi.regs hpar.2.2.2.1 _ n hkt).1 ((puts t).1 hn)
  have hregx : ¬ p.reg n (.ofList [x]) := fun h => hnot ((puts x).2 ((hpi.regs hpar.2.2.2.1 _ n (by rw [hk]; rfl)).2 h))
  obtain ⟨ls, hls⟩ : ∃ ls, Dict.get p.nodeToLayers n = some ls := by
    unfold MPlex.reg at hregt
    cases e : Dict.get p.nodeToLayers n with
    | none => rw [e] at hregt; simp at hregt
    | some ls => exact ⟨ls, rfl⟩
  have hxl : LKey.ofList [x] ∉ ls := by
    unfold MPlex.reg at hregx
    rw [hls] at hregx
    exact hregx
  have hdeg : k.degOut [n] none = 0 := by
    have he : k.iterOut [n] none = [] := by
      apply List.eq_nil_iff_forall_not_mem.2
      intro b hb
      rw [MNet.mem_iterOut] at hb
      obtain ⟨w, hw⟩ := Option.isSome_iff_exists.1 hb.1
      have hr := (MNet.reg_iff hkk.inv.r [n]).1 (hkk.inv.reg [n] b w hw).1
      have hsl : k.slices.length = 1 := by rw [hkk.inv.r.slen, hkk.asp]
      refine hnot ((puts x).2 ⟨k, hk, ?_⟩)
      match hS : k.slices, hsl with
      | [S0], _ =>
        rw [hS, mem_product_one] at hr
        obtain ⟨y, hy, e⟩ := hr
        cases e
        exact hy
    simp only [MNet.degOut, MNet.degDict_eq]
    simp only [MNet.iterOut] at he
    rw [he]; rfl
  change (if p.directed then p.degTotalDir [n, x] none else p.degOut [n, x] none) = .ok 0
  rw [hpar.2.1]
  simp only [Bool.false_eq_true, if_false]
  have hdim : p.dimDegree [n, x] 1 .out = .ok 0 := by
    unfold MPlex.dimDegree
    rw [hpar.2.2.2.2]
    simp only [Nat.sub_self, List.getElem?_cons_zero, hpar.2.2.2.1, Bool.false_eq_true, if_false, hls, if_neg hxl]
  have hch : p.onChild [n, x] (fun c n => .ok ((c.degOut n none : Nat) : Int)) = .ok (0 : Int) := by
    unfold MPlex.onChild
    simp only [hk, hdeg, Nat.cast_zero]
  unfold MPlex.degOut MPlex.selectDimensions
  have : p.aspects + 1 = 2 := by rw [hpar.1]; rfl
  simp only [this, List.range_succ, List.range_zero, List.nil_append, List.cons_append, sumDims, if_true, hch, Nat.one_ne_zero, if_false, hdim]
  rfl

/-- **C95**, undirected multiplex networks with one aspect and categorical couplings, node-aligned or not, if for the
node-layers that a source can mean (the given names, and any names of the network in the aspects `aasp`) the layer is in the network and the
node is on some layer of it. -/
theorem C95_multiplex_unaligned_partial {c : W} {al : Bool} {ops : List (POp α W)} (hc : c ≠ 0) (hs : Spec.NoIntraSelf ops)
    (hw : ∀ a b, Spec.HasNodeLayer 1 al ops a → Spec.HasNodeLayer 1 al ops b →
      Spec.weight [.categorical c] false al ops a b ≠ 0 → 0 ≤ Spec.weight [.categorical c] false al ops a b) (hpop : Spec.PopsLeast pop)
    (hsrc : ∀ s ∈ sources, Spec.SourceFor 1 aasp s)
    (hnames : ∀ s ∈ sources, ∀ nl : List α, nl.length = 2 → (∀ (i : Nat) x, nl[i]? = some x →
      (i ∈ aasp → Spec.CarriesName 1 al ops i x) ∧ (i ∉ aasp → s[i]? = some (some x))) →
      ∃ n x t, nl = [n, x] ∧ Spec.HasNodeLayer 1 al ops [n, t] ∧ Spec.CarriesName 1 al ops 1 x) :
    let NL := Spec.HasNodeLayer 1 al ops
    let R := Spec.weight [.categorical c] false al ops
    let St := Spec.LinkStep NL 0 R
    ∃ src, (∀ nl, nl ∈ src ↔ Spec.Starts NL 0 R aasp sources nl) ∧
      (∀ fuel depth r, {nl | NL nl}.ncard < depth →
        (afterP [.categorical c] false 0 al ops).view.dijkstraPrune pop sources aasp fuel depth = some r →
        ∃ N T, r = .ok (N, T) ∧
        (∀ u t, Dict.get N u = some t ↔ ∃ x, Spec.reduce aasp x = u ∧ Spec.Nearest St R src aasp x t) ∧
        ∃ R', (∀ a b, Spec.Pruned St R src aasp a b → R' a b = R a b) ∧
          (∀ a b, ¬ Spec.Pruned St R src aasp a b → R' a b = -1) ∧
          Spec.Looks T 1 (-1) true false
            (fun k x => ∃ a b, Spec.Pruned St R src aasp a b ∧ (a[k]? = some x ∨ b[k]? = some x))
            (fun nl => ∃ a b, Spec.Pruned St R src aasp a b ∧ (nl = a ∨ nl = b)) R') ∧
      ∀ depth, {nl | NL nl}.ncard < depth →
        ((∃ fuel r, (afterP [.categorical c] false 0 al ops).view.dijkstraPrune pop sources aasp fuel depth = some r) ↔
          ∀ x ℓ, Spec.Reaches St R src x ℓ → ¬ Spec.OnZeroCycle St R x) := by
  classical
  intro NL R St
  have hU : Spec.Usable [.categorical c] al ops := ⟨by simp, by simpa using hc, by rintro (_ | d) w x h <;> simp at h⟩
  have hcs := hU.some_aspect
  have hpar := after_params hcs false 0 al ops
  set p := afterP [.categorical c] false 0 al ops with hp
  have hz : p.view.noEdge = 0 := hpar.2.2.1
  have ha : p.view.aspects = 1 := hpar.1
  obtain ⟨l, l1, -, l3⟩ := after_nodeLayers hcs false 0 al ops
  have hsound := main_sound (directed := false) hU hs (Or.inr ⟨c, rfl⟩)
  obtain ⟨l', q1, -, q2, q3⟩ := hsound.nls
  have hll : l' = l := Except.ok.inj (q1.symm.trans l1)
  subst hll
  obtain ⟨n0, n1, -⟩ := after_spec hcs false 0 al ops
  obtain ⟨src, s1, s2, s3⟩ := dijkstraPrune_spec (v := p.view) (NL := NL) (R' := R) (aasp := aasp)
    (sources := sources) (pop := pop) hsound (by rw [ha]) ⟨l', l1, l3⟩ (fun a b ha hb => main_R hU ha hb)
    (by rw [hz]; exact hw) hpop (by rw [ha]; exact hsrc) (by
      intro s hsm nl hlen hnl
      obtain ⟨n, x, t, rfl, hnt, hx⟩ := hnames s hsm nl (by rw [hlen, ha]) fun i x hx => ⟨fun hi => by
        have := (hnl i x hx).1 hi
        unfold Spec.CarriesName
        by_cases hi0 : i = 0
        · subst hi0; rw [if_pos rfl]; exact (n0 x).1 this
        · rw [if_neg hi0]; exact (n1 i x (by omega)).1 this, (hnl i x hx).2⟩
      unfold Spec.CarriesName at hx
      rw [if_neg (by omega)] at hx
      by_cases hnlN : NL [n, x]
      swap
      · cases al with
        | true =>
          refine absurd ?_ hnlN
          obtain ⟨n', s', e, -, ⟨-, h1, -⟩ | ⟨h, -⟩⟩ := hnt
          · cases e
            refine ⟨n, [x], rfl, rfl, Or.inl ⟨rfl, h1, [x], rfl, rfl, ?_⟩⟩
            rintro (_ | k) y hy
            · simp at hy; subst hy; exact hx
            · simp at hy
          · cases h
        | false =>
          refine ⟨0, deg_absent hnt hx hnlN, ⟨fun h => absurd h (by omega), ?_⟩⟩
          rintro ⟨b, h | h⟩
          · exact absurd h.1 hnlN
          · exact absurd h.2.1 hnlN
      set nl : List α := [n, x] with hnlE
      have hin : nl ∈ product p.view.slices := q2 nl ((l3 nl).2 hnlN)
      obtain ⟨ls, t1, t2, t3⟩ := hsound.tot nl hin
      refine ⟨ls.length, hsound.degU hpar.2.1 l' l1 nl ((l3 nl).2 hnlN) ls t1, ?_⟩
      have hb : ∀ b, b ∈ ls ↔ (Spec.LinkStep NL p.view.noEdge R nl b ∨ Spec.LinkStep NL p.view.noEdge R b nl) := by
        intro b
        rw [t3]
        constructor
        · rintro ⟨hb, h⟩
          have hbN : NL b := by
            rcases h with h | h
            · exact (l3 b).1 (q3 nl hin b hb h).2
            · exact (l3 b).1 (q3 b hb nl hin h).1
          refine h.imp (fun h => ⟨hnlN, hbN, ?_⟩) (fun h => ⟨hbN, hnlN, ?_⟩)
          · exact fun e => h ((main_R (directed := false) hU hnlN hbN).trans e)
          · exact fun e => h ((main_R (directed := false) hU hbN hnlN).trans e)
        · intro h
          have hbN : NL b := h.elim (fun h => h.2.1) (fun h => h.1)
          refine ⟨q2 b ((l3 b).2 hbN), h.imp (fun h => ?_) (fun h => ?_)⟩
          · rw [main_R (directed := false) hU hnlN hbN]; exact h.2.2
          · rw [main_R (directed := false) hU hbN hnlN]; exact h.2.2
      constructor
      · intro h0
        have : ls ≠ [] := by rintro rfl; simp at h0
        obtain ⟨b, hb'⟩ := List.exists_mem_of_ne_nil _ this
        exact ⟨b, (hb b).1 hb'⟩
      · rintro ⟨b, hb'⟩
        have := List.length_pos_of_mem ((hb b).2 hb')
        exact_mod_cast this)
  rw [hz] at s1 s2 s3
  rw [ha] at s2
  refine ⟨src, s1, fun fuel depth r h1 h2 => ?_, s3⟩
  obtain ⟨N, T, e1, e2, e3⟩ := s2 fuel depth r h1 h2
  exact ⟨N, T, e1, e2, _, fun a b hab => if_pos hab, fun a b hab => if_neg hab, e3⟩

/-- the shortest paths from node 1, on any layer, in a network that is not node-aligned; it is on one of two layers, and node 4 on none -/
example {pop : List (QEntry Int Int) → QEntry Int Int × List (QEntry Int Int)} (hpop : Spec.PopsLeast pop) (fuel : Nat)
    {r : Except Err (Dict (List Int) Int × MNet Int Int)}
    (h : (afterP [.categorical (1 : Int)] false 0 false exSubOps).view.dijkstraPrune pop [[some 1, none]] [1] fuel 9 = some r) :
    ∃ N T, r = .ok (N, T) := by
  have hU : Spec.Usable [.categorical (1 : Int)] false exSubOps := ⟨by simp, by simp, by rintro (_ | d) w x h <;> simp at h⟩
  obtain ⟨l, l1, lnd, l3⟩ := after_nodeLayers (cs := [.categorical (1 : Int)]) (by simp) false 0 false exSubOps
  have hl : l = [[1, 10], [2, 10], [2, 20], [3, 20]] := Except.ok.inj (l1.symm.trans rfl)
  subst hl
  obtain ⟨n0, n1, -⟩ := after_spec (cs := [.categorical (1 : Int)]) (by simp) false 0 false exSubOps
  have hcard : {nl | Spec.HasNodeLayer 1 false exSubOps nl}.ncard = 4 := MNet.ncard_of_list lnd l3
  obtain ⟨src, -, s2, -⟩ := C95_multiplex_unaligned_partial (c := (1 : Int)) (al := false) (ops := exSubOps) (aasp := [1])
    (sources := [[some 1, none]]) (by simp) (by intro L i w h; simp [exSubOps] at h)
    (fun a b ha hb _ => by
      have hR := main_R (directed := false) hU ha hb
      rw [← hR]
      have := (by decide +kernel : ∀ a ∈ ([[1, 10], [2, 10], [2, 20], [3, 20]] : List (List Int)), ∀ b ∈ ([[1, 10], [2, 10], [2, 20], [3, 20]] : List (List Int)),
        0 ≤ (afterP [.categorical (1 : Int)] false 0 false exSubOps).R a b)
      exact this a ((l3 a).2 ha) b ((l3 b).2 hb)) hpop (by simp [Spec.SourceFor])
    (fun s hs nl hlen hnl => by
      obtain ⟨n, x, rfl⟩ := List.length_eq_two.1 hlen
      simp only [List.mem_singleton] at hs
      subst hs
      have h0 : 1 = n := by simpa using (hnl 0 n rfl).2 (by simp)
      subst h0
      have h1 := (hnl 1 x rfl).1 (by simp)
      unfold Spec.CarriesName at h1
      rw [if_neg (by omega)] at h1
      exact ⟨1, x, 10, rfl, (l3 _).1 (by simp), by unfold Spec.CarriesName; rw [if_neg (by omega)]; exact h1⟩)
  obtain ⟨N, T, e, -⟩ := s2 fuel 9 r (by rw [hcard]; omega) h
  exact ⟨N, T, e⟩

/-- what the hypothesis on the sources excludes: a node of the network that is on no layer raises a `KeyError` -/
example (pop : List (QEntry Int Int) → QEntry Int Int × List (QEntry Int Int)) :
    (afterP [.categorical (1 : Int)] false 0 false exSubOps).view.dijkstraPrune pop [[some 4, none]] [1] 9 9 = some (.error .keyError) := rfl

end Pymnet
