import Verif.Proofs.Prune2
import Verif.Props.Diagnostics
import Verif.Props.PlexSubnet

/-! Shortest paths between nodes of which only some aspects are given, and the densities and degrees of the
intra-layer networks: C95, C96, C97. -/

set_option linter.unusedSectionVars false
set_option linter.unusedSimpArgs false

namespace Pymnet

open Py MPlex

variable {α W : Type} [DecidableEq α] [DecidableEq W]

/-! ### C95 -/

section
variable [CommRing W] [LinearOrder W] [IsStrictOrderedRing W]
  {pop : List (QEntry α W) → QEntry α W × List (QEntry α W)} {aasp : List Nat} {sources : List (List (Option α))}
  {m : MNet α W} {d : Nat} {z : W} {dir al : Bool} {S : Nat → α → Prop} {NL : List α → Prop} {R : List α → List α → W}

/-- Internal: C95 for any network that reports a positive degree exactly for the node-layers with links. -/
theorem prune_looks (h : Spec.Looks m d z dir al S NL R) (hd : 1 ≤ d)
    (hw : ∀ a b, NL a → NL b → R a b ≠ z → 0 ≤ R a b) (hpop : Spec.PopsLeast pop)
    (hsrc : ∀ s ∈ sources, Spec.SourceFor d aasp s)
    (hdeg : ∀ nl, nl.length = d + 1 → (0 < m.deg nl none ↔ ∃ b, Spec.LinkStep NL z R nl b ∨ Spec.LinkStep NL z R b nl)) :
    ∃ src, (∀ nl, nl ∈ src ↔ Spec.Starts NL z R aasp sources nl) ∧
      (∀ fuel depth r, {nl | NL nl}.ncard < depth → m.view.dijkstraPrune pop sources aasp fuel depth = some r →
        ∃ N T, r = .ok (N, T) ∧
        (∀ u t, Dict.get N u = some t ↔ ∃ x, Spec.reduce aasp x = u ∧ Spec.Nearest (Spec.LinkStep NL z R) R src aasp x t) ∧
        ∃ R', (∀ a b, Spec.Pruned (Spec.LinkStep NL z R) R src aasp a b → R' a b = R a b) ∧
          (∀ a b, ¬ Spec.Pruned (Spec.LinkStep NL z R) R src aasp a b → R' a b = -1) ∧
          Spec.Looks T d (-1) true false
            (fun k x => ∃ a b, Spec.Pruned (Spec.LinkStep NL z R) R src aasp a b ∧ (a[k]? = some x ∨ b[k]? = some x))
            (fun nl => ∃ a b, Spec.Pruned (Spec.LinkStep NL z R) R src aasp a b ∧ (nl = a ∨ nl = b)) R') ∧
      ∀ depth, {nl | NL nl}.ncard < depth →
        ((∃ fuel r, m.view.dijkstraPrune pop sources aasp fuel depth = some r) ↔
          ∀ x ℓ, Spec.Reaches (Spec.LinkStep NL z R) R src x ℓ → ¬ Spec.OnZeroCycle (Spec.LinkStep NL z R) R x) := by
  classical
  have hz : m.view.noEdge = z := h.noEdge_eq
  have ha : m.view.aspects = d := h.aspects_eq
  obtain ⟨src, s1, s2, s3⟩ := dijkstraPrune_spec (v := m.view) (NL := NL) (R' := R) (aasp := aasp) (sources := sources)
    (pop := pop) h.sound (by rw [ha]; exact hd) ⟨_, rfl, h.nodeLayers.2⟩
    (fun a b ha hb => h.reads_eq (h.nl_length ha) (h.nl_length hb)) (by rw [hz]; exact hw) hpop (by rw [ha]; exact hsrc)
    (fun s _ nl hl _ => ⟨m.deg nl none, rfl, by rw [hz]; exact hdeg nl (hl.trans (by rw [ha]))⟩)
  rw [hz] at s1 s2 s3
  rw [ha] at s2
  refine ⟨src, s1, fun fuel depth r h1 h2 => ?_, s3⟩
  obtain ⟨N, T, e1, e2, e3⟩ := s2 fuel depth r h1 h2
  exact ⟨N, T, e1, e2, _, fun a b hab => if_pos hab, fun a b hab => if_neg hab, e3⟩

/-- **C95.** `dijkstra_mlayer_prune(net,sources,aaspects)` on an undirected network with at least one aspect and
non-negative weights, whatever the order in which the heap yields entries of equal distance. The paths start at the
node-layers that have a link and agree with a source outside `aaspects`. If the call returns (and Python's recursion
limit is larger than the number of node-layers), it does not raise; it maps exactly the tuples left of the reachable
node-layers when the aspects `aaspects` are dropped, to the least distance of these node-layers; the forest consists of
the steps of the shortest walks to the node-layers at which this least distance is attained, with their weights (and
the self-pairs of the sources where such walks start). The call returns iff no closed walk of weight zero can be
reached. -/
theorem C95_prune (h : Spec.Looks m d z false al S NL R) (hd : 1 ≤ d)
    (hw : ∀ a b, NL a → NL b → R a b ≠ z → 0 ≤ R a b) (hpop : Spec.PopsLeast pop)
    (hsrc : ∀ s ∈ sources, Spec.SourceFor d aasp s) :
    ∃ src, (∀ nl, nl ∈ src ↔ Spec.Starts NL z R aasp sources nl) ∧
      (∀ fuel depth r, {nl | NL nl}.ncard < depth → m.view.dijkstraPrune pop sources aasp fuel depth = some r →
        ∃ N T, r = .ok (N, T) ∧
        (∀ u t, Dict.get N u = some t ↔ ∃ x, Spec.reduce aasp x = u ∧ Spec.Nearest (Spec.LinkStep NL z R) R src aasp x t) ∧
        ∃ R', (∀ a b, Spec.Pruned (Spec.LinkStep NL z R) R src aasp a b → R' a b = R a b) ∧
          (∀ a b, ¬ Spec.Pruned (Spec.LinkStep NL z R) R src aasp a b → R' a b = -1) ∧
          Spec.Looks T d (-1) true false
            (fun k x => ∃ a b, Spec.Pruned (Spec.LinkStep NL z R) R src aasp a b ∧ (a[k]? = some x ∨ b[k]? = some x))
            (fun nl => ∃ a b, Spec.Pruned (Spec.LinkStep NL z R) R src aasp a b ∧ (nl = a ∨ nl = b)) R') ∧
      ∀ depth, {nl | NL nl}.ncard < depth →
        ((∃ fuel r, m.view.dijkstraPrune pop sources aasp fuel depth = some r) ↔
          ∀ x ℓ, Spec.Reaches (Spec.LinkStep NL z R) R src x ℓ → ¬ Spec.OnZeroCycle (Spec.LinkStep NL z R) R x) := by
  refine prune_looks h hd hw hpop hsrc fun nl hl => ?_
  have hdir : m.directed = false := h.directed_eq
  have hdg : m.deg nl none = ((m.iterOut nl none).length : Int) := by
    simp only [MNet.deg, hdir, Bool.false_eq_true, if_false, MNet.degOut, MNet.degDict_eq, MNet.iterOut]
  rw [hdg]
  have hmem : ∀ b, b ∈ m.iterOut nl none ↔ Spec.LinkStep NL z R nl b := by
    intro b
    rw [MNet.mem_iterOut]
    simp only [dimsOk, and_true]
    constructor
    · intro hb
      obtain ⟨w, hw⟩ := Option.isSome_iff_exists.1 hb
      have lb : b.length = d + 1 := by
        rw [h.sound.length_of_mem ((MNet.reg_iff h.inv.r b).1 (h.inv.reg nl b w hw).2)]
        exact congrArg (· + 1) h.aspects_eq
      have hR : R nl b ≠ z := by
        rw [← h.reads_eq hl lb, ← h.noEdge_eq]; exact (MNet.reads_ne_noEdge h.inv.l ..).2 hb
      have := h.linked hl lb hR
      exact ⟨this.1.2, this.2.2, hR⟩
    · rintro ⟨h1, h2, h3⟩
      rw [← h.reads_eq hl (h.nl_length h2), ← h.noEdge_eq] at h3
      exact (MNet.reads_ne_noEdge h.inv.l ..).1 h3
  have hsym : ∀ b, Spec.LinkStep NL z R b nl → Spec.LinkStep NL z R nl b := fun b hb =>
    ⟨hb.2.1, hb.1, by rw [h.sym hl (h.nl_length hb.1)]; exact hb.2.2⟩
  constructor
  · intro h0
    have : m.iterOut nl none ≠ [] := by intro e; simp [e] at h0
    obtain ⟨b, hb⟩ := List.exists_mem_of_ne_nil _ this
    exact ⟨b, Or.inl ((hmem b).1 hb)⟩
  · rintro ⟨b, hb⟩
    have : b ∈ m.iterOut nl none := (hmem b).2 (hb.elim id (hsym b))
    have := List.length_pos_of_mem this
    exact_mod_cast this

/-- **C95**, directed networks whose history deletes no link (after a deletion the total degree may be too large,
C05, and then isolated node-layers are used as sources as well). -/
theorem C95_directed_partial {aligned : Bool} {ops : List (Op α W)} (hd : 1 ≤ d) (hno : ∀ item, Op.setItem item z ∉ ops)
    (hw : ∀ a b, Spec.HasNodeLayerG d aligned ops a → Spec.HasNodeLayerG d aligned ops b →
      Spec.read d true z ops a b ≠ z → 0 ≤ Spec.read d true z ops a b) (hpop : Spec.PopsLeast pop)
    (hsrc : ∀ s ∈ sources, Spec.SourceFor d aasp s) :
    let NL := Spec.HasNodeLayerG d aligned ops
    let R := Spec.read d true z ops
    let St := Spec.LinkStep NL z R
    ∃ src, (∀ nl, nl ∈ src ↔ Spec.Starts NL z R aasp sources nl) ∧
      (∀ fuel depth r, {nl | NL nl}.ncard < depth →
        (after d z true aligned ops).view.dijkstraPrune pop sources aasp fuel depth = some r →
        ∃ N T, r = .ok (N, T) ∧
        (∀ u t, Dict.get N u = some t ↔ ∃ x, Spec.reduce aasp x = u ∧ Spec.Nearest St R src aasp x t) ∧
        ∃ R', (∀ a b, Spec.Pruned St R src aasp a b → R' a b = R a b) ∧
          (∀ a b, ¬ Spec.Pruned St R src aasp a b → R' a b = -1) ∧
          Spec.Looks T d (-1) true false
            (fun k x => ∃ a b, Spec.Pruned St R src aasp a b ∧ (a[k]? = some x ∨ b[k]? = some x))
            (fun nl => ∃ a b, Spec.Pruned St R src aasp a b ∧ (nl = a ∨ nl = b)) R') ∧
      ∀ depth, {nl | NL nl}.ncard < depth →
        ((∃ fuel r, (after d z true aligned ops).view.dijkstraPrune pop sources aasp fuel depth = some r) ↔
          ∀ x ℓ, Spec.Reaches St R src x ℓ → ¬ Spec.OnZeroCycle St R x) := by
  have h := network_looks d z true aligned ops
  refine prune_looks h hd hw hpop hsrc fun nl hl => ?_
  have hdg := Except.ok.inj (C05_total_degree_partial d z aligned ops hno nl)
  change MNet.deg _ nl none = _ at hdg
  rw [hdg]
  obtain ⟨l, -, l2, l3⟩ := C03_iter_total d z true aligned ops nl (dims := none) trivial
  have l3' : ∀ b, b ∈ l ↔ (Spec.read d true z ops nl b ≠ z ∨ Spec.read d true z ops b nl ≠ z) := by
    intro b; rw [l3]; simp [Spec.Allowed]
  rw [MNet.ncard_of_list l2 l3']
  have hstep : ∀ b, b ∈ l ↔ (Spec.LinkStep (Spec.HasNodeLayerG d aligned ops) z (Spec.read d true z ops) nl b ∨
      Spec.LinkStep (Spec.HasNodeLayerG d aligned ops) z (Spec.read d true z ops) b nl) := by
    intro b
    rw [l3']
    constructor
    · intro hb
      have lb : b.length = d + 1 := by
        have hex : (MNet.lk (after d z true aligned ops) nl b).isSome = true ∨
            (MNet.lk (after d z true aligned ops) b nl).isSome = true :=
          hb.imp (after_exists d z true aligned ops nl b).1 (after_exists d z true aligned ops b nl).1
        have hreg : b ∈ product (after d z true aligned ops).view.slices := by
          rcases hex with hx | hx
          · obtain ⟨w, hw⟩ := Option.isSome_iff_exists.1 hx
            exact (MNet.reg_iff h.inv.r b).1 (h.inv.reg nl b w hw).2
          · obtain ⟨w, hw⟩ := Option.isSome_iff_exists.1 hx
            exact (MNet.reg_iff h.inv.r b).1 (h.inv.reg b nl w hw).1
        rw [h.sound.length_of_mem hreg]
        exact congrArg (· + 1) h.aspects_eq
      rcases hb with hb | hb
      · have := h.linked hl lb hb
        exact Or.inl ⟨this.1.2, this.2.2, hb⟩
      · have := h.linked lb hl hb
        exact Or.inr ⟨this.1.2, this.2.2, hb⟩
    · exact fun hb => hb.imp (fun x => x.2.2) (fun x => x.2.2)
  constructor
  · intro h0
    have : l ≠ [] := by rintro rfl; simp at h0
    obtain ⟨b, hb⟩ := List.exists_mem_of_ne_nil _ this
    exact ⟨b, (hstep b).1 hb⟩
  · rintro ⟨b, hb⟩
    have := List.length_pos_of_mem ((hstep b).2 hb)
    exact_mod_cast this

/-- **C95**, undirected node-aligned multiplex networks; every source names a node and elementary layers of the
network. -/
theorem C95_multiplex_partial [LawfulIntNames α] {cs : List (Coupling α W)} {ops : List (POp α W)}
    (hU : Spec.Usable cs true ops) (hs : Spec.NoIntraSelf ops)
    (hw : ∀ a b, Spec.HasNodeLayer cs.length true ops a → Spec.HasNodeLayer cs.length true ops b →
      Spec.weight cs false true ops a b ≠ 0 → 0 ≤ Spec.weight cs false true ops a b) (hpop : Spec.PopsLeast pop)
    (hsrc : ∀ s ∈ sources, Spec.SourceFor cs.length aasp s)
    (hnames : ∀ s ∈ sources, ∃ nl, Spec.HasNodeLayer cs.length true ops nl ∧
      ∀ (i : Nat) x, i ∉ aasp → nl[i]? = some x → s[i]? = some (some x)) :
    let NL := Spec.HasNodeLayer cs.length true ops
    let R := Spec.weight cs false true ops
    let St := Spec.LinkStep NL 0 R
    ∃ src, (∀ nl, nl ∈ src ↔ Spec.Starts NL 0 R aasp sources nl) ∧
      (∀ fuel depth r, {nl | NL nl}.ncard < depth →
        (afterP cs false 0 true ops).view.dijkstraPrune pop sources aasp fuel depth = some r →
        ∃ N T, r = .ok (N, T) ∧
        (∀ u t, Dict.get N u = some t ↔ ∃ x, Spec.reduce aasp x = u ∧ Spec.Nearest St R src aasp x t) ∧
        ∃ R', (∀ a b, Spec.Pruned St R src aasp a b → R' a b = R a b) ∧
          (∀ a b, ¬ Spec.Pruned St R src aasp a b → R' a b = -1) ∧
          Spec.Looks T cs.length (-1) true false
            (fun k x => ∃ a b, Spec.Pruned St R src aasp a b ∧ (a[k]? = some x ∨ b[k]? = some x))
            (fun nl => ∃ a b, Spec.Pruned St R src aasp a b ∧ (nl = a ∨ nl = b)) R') ∧
      ∀ depth, {nl | NL nl}.ncard < depth →
        ((∃ fuel r, (afterP cs false 0 true ops).view.dijkstraPrune pop sources aasp fuel depth = some r) ↔
          ∀ x ℓ, Spec.Reaches St R src x ℓ → ¬ Spec.OnZeroCycle St R x) := by
  classical
  intro NL R St
  have hcs := hU.some_aspect
  have hpar := after_params hcs false 0 true ops
  have hz : (afterP cs false 0 true ops).view.noEdge = 0 := hpar.2.2.1
  have ha : (afterP cs false 0 true ops).view.aspects = cs.length := hpar.1
  have hpos : 1 ≤ cs.length := List.length_pos_iff.2 hcs
  obtain ⟨l, l1, -, l3⟩ := after_nodeLayers hcs false 0 true ops
  have hsound := main_sound (directed := false) hU hs (Or.inl rfl)
  have hprod : (afterP cs false 0 true ops).view.nodeLayers = .ok (product (afterP cs false 0 true ops).view.slices) := by
    change (afterP cs false 0 true ops).nodeLayers = .ok (product (afterP cs false 0 true ops).slices)
    unfold MPlex.nodeLayers; rw [if_pos hpar.2.2.2.1]
  have hl : l = product (afterP cs false 0 true ops).view.slices := Except.ok.inj (l1.symm.trans hprod)
  obtain ⟨src, s1, s2, s3⟩ := dijkstraPrune_spec (v := (afterP cs false 0 true ops).view) (NL := NL) (R' := R) (aasp := aasp)
    (sources := sources) (pop := pop) hsound (by rw [ha]; exact hpos) ⟨l, l1, l3⟩ (fun a b ha hb => main_R hU ha hb)
    (by rw [hz]; exact hw) hpop (by rw [ha]; exact hsrc) (by
      intro s hsm nl hlen hnl
      obtain ⟨nl0, h0, hm⟩ := hnames s hsm
      have hin : nl ∈ product (afterP cs false 0 true ops).view.slices := by
        rw [hsound.mem_product]
        refine ⟨hlen, fun i x hx => ?_⟩
        by_cases hi : i ∈ aasp
        · exact (hnl i x hx).1 hi
        · have h0p := (hsound.mem_product nl0).1 (hl ▸ (l3 nl0).2 h0)
          have hlt := (List.getElem?_eq_some_iff.1 hx).1
          have hlt0 : i < nl0.length := by rw [h0p.1, ← hlen]; exact hlt
          have h1 : nl0[i]? = some nl0[i] := List.getElem?_eq_getElem hlt0
          have h2 := hm i _ hi h1
          rw [(hnl i x hx).2 hi] at h2
          have : x = nl0[i] := Option.some.inj (Option.some.inj h2)
          exact h0p.2 i x (by rw [this]; exact h1)
      have hnlN : NL nl := (l3 nl).1 (by rw [hl]; exact hin)
      obtain ⟨ls, t1, t2, t3⟩ := hsound.tot nl hin
      refine ⟨ls.length, hsound.degU hpar.2.1 l l1 nl ((l3 nl).2 hnlN) ls t1, ?_⟩
      have hb : ∀ b, b ∈ ls ↔ (Spec.LinkStep NL (afterP cs false 0 true ops).view.noEdge R nl b ∨
          Spec.LinkStep NL (afterP cs false 0 true ops).view.noEdge R b nl) := by
        intro b
        rw [t3]
        constructor
        · rintro ⟨hb, h⟩
          have hbN : NL b := (l3 b).1 (by rw [hl]; exact hb)
          refine h.imp (fun h => ⟨hnlN, hbN, ?_⟩) (fun h => ⟨hbN, hnlN, ?_⟩)
          · exact fun e => h ((main_R (directed := false) hU hnlN hbN).trans e)
          · exact fun e => h ((main_R (directed := false) hU hbN hnlN).trans e)
        · intro h
          have hbN : NL b := h.elim (fun h => h.2.1) (fun h => h.1)
          refine ⟨by rw [← hl]; exact (l3 b).2 hbN, h.imp (fun h => ?_) (fun h => ?_)⟩
          · rw [main_R (directed := false) hU hnlN hbN]; exact h.2.2
          · rw [main_R (directed := false) hU hbN hnlN]; exact h.2.2
      constructor
      · intro h0
        have : ls ≠ [] := by rintro rfl; simp at h0
        obtain ⟨b, hb'⟩ := List.exists_mem_of_ne_nil _ this
        exact ⟨b, (hb b).1 hb'⟩
      · rintro ⟨b, hb'⟩
        have := List.length_pos_of_mem ((hb b).2 hb')
        exact_mod_cast this)
  rw [hz] at s1 s2 s3
  rw [ha] at s2
  refine ⟨src, s1, fun fuel depth r h1 h2 => ?_, s3⟩
  obtain ⟨N, T, e1, e2, e3⟩ := s2 fuel depth r h1 h2
  exact ⟨N, T, e1, e2, _, fun a b hab => if_pos hab, fun a b hab => if_neg hab, e3⟩

end

/-- A source with a name in an aspect that is to be dropped is refused. -/
theorem C95_refused [CommRing W] [LinearOrder W] [IsStrictOrderedRing W] {v : View α W}
    {pop : List (QEntry α W) → QEntry α W × List (QEntry α W)} {aasp : List Nat} {s : List (Option α)}
    {sources : List (List (Option α))} {a : Nat} {x : α} (hsl : v.slices.length = v.aspects + 1)
    (hlen : v.aspects + 1 ≤ s.length) (ha : a ∈ aasp) (hle : a ≤ v.aspects) (hx : s[a]? = some (some x)) (fuel depth : Nat) :
    v.dijkstraPrune pop (s :: sources) aasp fuel depth = some (.error .assertionError) := by
  have key : ∀ (k n : Nat) (ls : List (List α)), k ≤ a → a < k + n → k + n ≤ v.aspects + 1 →
      forE (v.addChoice aasp s) (List.range' k n) ls = .error .assertionError := by
    intro k n
    induction n generalizing k with
    | zero => intro ls h1 h2; omega
    | succ n ih =>
      intro ls h1 h2 h3
      rw [List.range'_succ, forE]
      by_cases hk : k = a
      · subst hk
        have : v.addChoice aasp s ls k = .error .assertionError := by
          simp only [View.addChoice, View.choices, hx, ha, if_true]
        rw [this]
      · obtain ⟨y, hy⟩ : ∃ y, s[k]? = some y := ⟨_, List.getElem?_eq_getElem (by omega)⟩
        have hsk : v.slices[k]? = some (v.slices[k]'(by omega)) := List.getElem?_eq_getElem _
        have : v.addChoice aasp s ls k = .error .assertionError ∨ ∃ ls', v.addChoice aasp s ls k = .ok ls' := by
          unfold View.addChoice View.choices
          rw [hy]
          simp only
          by_cases hka : k ∈ aasp
          · simp only [hka, if_true]
            cases y with
            | some y => exact Or.inl rfl
            | none => simp only [hsk]; exact Or.inr ⟨_, rfl⟩
          · simp only [hka, if_false]; exact Or.inr ⟨_, rfl⟩
        rcases this with h | ⟨ls', h⟩
        · rw [h]
        · rw [h]; exact ih (k + 1) ls' (by omega) (by omega) (by omega)
  have h1 := key 0 (v.aspects + 1) [] (by omega) (by omega) (by omega)
  rw [← List.range_eq_range'] at h1
  unfold View.dijkstraPrune
  rw [forE]
  have : v.addSources aasp [] s = .error .assertionError := by
    unfold View.addSources; rw [h1]
  rw [this]

example : ((after 1 0 false true transOps).view.dijkstraPrune popMin [[some 1, none]] [1] 40 40).map (fun r => r.toOption.map
      fun r => (r.1, r.2.reads [1, 11] [2, 11], r.2.reads [1, 10] [2, 10], r.2.reads [1, 10] [1, 10])) =
    some (some ([([1], 0), ([2], 3), ([3], 4)], 3, -1, 0)) := by decide +kernel
example : ∀ s ∈ [[some 1, none]], Spec.SourceFor (α := Nat) 1 [1] s := by
  simp [Spec.SourceFor]

/-! ### C96 -/

/-- Internal: a dict built layer by layer. -/
theorem noteLayers_spec {β : Type} (f : View α W → Except Err β) (p : MPlex α W) (l : List (LKey α))
    (h : ∀ L ∈ l, ∃ c x, p.child? L = some c ∧ f c.view = .ok x) :
    ∃ D, forE (MPlex.noteLayer f p) l [] = .ok D ∧
      ∀ L x, Dict.get D L = some x ↔ L ∈ l ∧ ∃ c, p.child? L = some c ∧ f c.view = .ok x := by
  refine forE_ok (P := fun pre D => ∀ L x, Dict.get D L = some x ↔ L ∈ pre ∧ ∃ c, p.child? L = some c ∧ f c.view = .ok x) l
    (by simp) ?_
  intro pre L post D hl hD
  obtain ⟨c, x, hc, hx⟩ := h L (by rw [hl]; simp)
  refine ⟨Dict.set D L x, by unfold MPlex.noteLayer; rw [hc]; simp only [hx], fun L' y => ?_⟩
  rw [Dict.get_set]
  by_cases hL : L = L'
  · subst hL
    rw [if_pos rfl]
    simp only [List.mem_append, List.mem_singleton, or_true, true_and]
    constructor
    · intro e; exact ⟨c, hc, by rw [← Option.some.inj e]; exact hx⟩
    · rintro ⟨c', hc', hy⟩
      rw [hc] at hc'
      rw [← Option.some.inj hc', hx] at hy
      rw [Except.ok.inj hy]
  · rw [if_neg hL, hD]
    have : ¬ (L' = L) := fun e => hL e.symm
    simp [this]

section
variable [Zero W] {cs : List (Coupling α W)} {dir al : Bool} {z : W} {ops : List (POp α W)}

/-- Internal: the intra-layer network as the diagnostics see it. -/
theorem layer_facts (hcs : cs ≠ []) {s : List α} (hs : Spec.HasLayer cs.length al ops (.ofList s)) :
    ∃ c, (afterP cs dir z al ops).child? (.ofList s) = some c ∧ c.view.Sound c.reads ∧ c.view.fic = true ∧
      c.view.noEdge = 0 ∧ c.view.aspects = 0 ∧ c.view.directed = dir ∧
      c.view.nodeLayers = .ok (product c.view.slices) ∧
      (∀ nl, nl ∈ product c.view.slices ↔ ∃ i, nl = [i] ∧ Spec.HasNodeLayer cs.length al ops (i :: s)) ∧
      ∀ i j, c.reads [i] [j] = Spec.readP cs.length dir al ops s i j := by
  have hb := builtX_after cs dir z al ops
  have hs' := (hasLayer_LYs (fun _ _ _ _ => Iff.rfl) s).1 hs
  obtain ⟨c, c1, c2, c3, c4, c5, c6, c7, c8⟩ := hb.child hcs hs'
  refine ⟨c, c1, c2.sound, c6, c5, c3, c4, ?_, fun nl => ?_, c8⟩
  · change Except.ok c.nodeLayers = .ok (product c.slices)
    unfold MNet.nodeLayers; rw [if_pos c6]
  · have hsl : c.slices.length = 1 := by rw [c2.r.slen, c3]
    match hS : c.slices, hsl with
    | [S0], _ =>
      rw [hS] at c7
      change nl ∈ product c.slices ↔ _
      rw [hS]
      have : ∀ i, i ∈ S0 ↔ Spec.HasNodeLayer cs.length al ops (i :: s) := by
        intro i
        have h7 := c7 i
        simp only [List.headD_cons] at h7
        rw [h7]
        unfold Spec.HasNodeLayer
        constructor
        · intro h
          refine ⟨i, s, rfl, hs'.1, ?_⟩
          cases al with
          | true => exact Or.inl ⟨rfl, by simpa using h, hs⟩
          | false => exact Or.inr ⟨rfl, by simpa using h⟩
        · rintro ⟨n, t, e, -, h⟩
          cases e
          rcases h with ⟨rfl, h, -⟩ | ⟨rfl, h⟩
          · simpa using h
          · simpa using h
      simp only [mem_product_one, ← this]
      constructor
      · rintro ⟨x, hx, rfl⟩; exact ⟨x, rfl, hx⟩
      · rintro ⟨x, rfl, hx⟩; exact ⟨x, hx, rfl⟩

/-- Internal: the nodes of a layer as 1-tuples. -/
theorem ncard_single {P : α → Prop} : {nl : List α | ∃ i, nl = [i] ∧ P i}.ncard = {i | P i}.ncard := by
  have : {nl : List α | ∃ i, nl = [i] ∧ P i} = (fun i => [i]) '' {i | P i} := by
    ext nl
    constructor
    · rintro ⟨i, rfl, h⟩; exact ⟨i, h, rfl⟩
    · rintro ⟨i, h, rfl⟩; exact ⟨i, rfl, h⟩
  rw [this]
  exact Set.ncard_image_of_injective _ (fun a b h => by simpa using h)

theorem ncard_single2 {P : α → α → Prop} :
    {p : List α × List α | ∃ i j, p.1 = [i] ∧ p.2 = [j] ∧ P i j}.ncard = {p : α × α | P p.1 p.2}.ncard := by
  have : {p : List α × List α | ∃ i j, p.1 = [i] ∧ p.2 = [j] ∧ P i j} = (fun q : α × α => ([q.1], [q.2])) '' {p : α × α | P p.1 p.2} := by
    ext ⟨x, y⟩
    constructor
    · rintro ⟨i, j, rfl, rfl, h⟩; exact ⟨(i, j), h, rfl⟩
    · rintro ⟨⟨i, j⟩, h, e⟩
      simp only [Prod.mk.injEq] at e
      exact ⟨i, j, e.1.symm, e.2.symm, h⟩
  rw [this]
  exact Set.ncard_image_of_injective _ (fun a b h => by
    simp only [Prod.mk.injEq, List.cons.injEq, and_true] at h
    exact Prod.ext h.1 h.2)

/-- **C96.** `multiplex_degs(net,degstype="nodes")` and `multiplex_degs(net)` of an undirected multiplex network have
exactly the layers as keys; a layer is mapped to the number of neighbours that each node of the layer has inside the
layer, and to the distribution of these numbers. Couplings are not counted. -/
theorem C96_degs (hcs : cs ≠ []) :
    (∃ D, (afterP cs false z al ops).degsNodes = .ok D ∧
      (∀ L, (Dict.get D L).isSome = true ↔ Spec.HasLayer cs.length al ops L) ∧
      ∀ s, Spec.HasLayer cs.length al ops (.ofList s) → ∃ E, Dict.get D (.ofList s) = some E ∧
        ∀ nl k, Dict.get E nl = some k ↔ ∃ i, nl = [i] ∧ Spec.HasNodeLayer cs.length al ops (i :: s) ∧
          k = {j | Spec.readP cs.length false al ops s i j ≠ 0}.ncard) ∧
    (∃ D, (afterP cs false z al ops).degs = .ok D ∧
      (∀ L, (Dict.get D L).isSome = true ↔ Spec.HasLayer cs.length al ops L) ∧
      ∀ s, Spec.HasLayer cs.length al ops (.ofList s) → ∃ E, Dict.get D (.ofList s) = some E ∧
        ∀ k n, Dict.get E k = some n ↔ n = {i | Spec.HasNodeLayer cs.length al ops (i :: s) ∧
          ({j | Spec.readP cs.length false al ops s i j ≠ 0}.ncard : Int) = k}.ncard ∧ 0 < n) := by
  have hlay := (C25_layers hcs false z al ops).2.2
  have core : ∀ s, Spec.HasLayer cs.length al ops (.ofList s) → ∃ c, (afterP cs false z al ops).child? (.ofList s) = some c ∧
      (∃ E, c.view.degs = .ok E ∧ ∀ k n, Dict.get E k = some n ↔ n = {i | Spec.HasNodeLayer cs.length al ops (i :: s) ∧
          ({j | Spec.readP cs.length false al ops s i j ≠ 0}.ncard : Int) = k}.ncard ∧ 0 < n) ∧
      ∃ E, c.view.degsNodes = .ok E ∧ ∀ nl k, Dict.get E nl = some k ↔
        ∃ i, nl = [i] ∧ Spec.HasNodeLayer cs.length al ops (i :: s) ∧
          k = {j | Spec.readP cs.length false al ops s i j ≠ 0}.ncard := by
    intro s hs
    obtain ⟨c, c1, c2, c3, c4, c5, c6, c7, c8, c9⟩ := layer_facts (dir := false) (z := z) hcs hs
    have hdeg : ∀ i, c.view.deg [i] none = .ok ({j | Spec.readP cs.length false al ops s i j ≠ 0}.ncard : Int) := by
      intro i
      obtain ⟨c', c1', d1, -⟩ := child_degOut hcs false z al ops hs (i := i)
      rw [c1] at c1'
      have : c = c' := Option.some.inj c1'
      subst this
      have hd : c.directed = false := c6
      change Except.ok (c.deg [i] none) = _
      rw [← d1]
      simp [MNet.deg, hd]
    obtain ⟨⟨E, e1, -, e3, -⟩, E', e1', e2'⟩ := degs_core (NL := fun nl => ∃ i, nl = [i] ∧ Spec.HasNodeLayer cs.length al ops (i :: s))
      c2 (fun _ => c7) ⟨_, c7, c8⟩
      (fun nl => match nl with
        | [i] => ({j | Spec.readP cs.length false al ops s i j ≠ 0}.ncard : Int)
        | _ => 0) (by rintro nl ⟨i, rfl, -⟩; exact hdeg i)
    refine ⟨c, c1, ⟨E, e1, fun k n => ?_⟩, E', e1', fun nl k => ?_⟩
    · rw [e3]
      have : {nl : List α | (∃ i, nl = [i] ∧ Spec.HasNodeLayer cs.length al ops (i :: s)) ∧ (match nl with
          | [i] => ({j | Spec.readP cs.length false al ops s i j ≠ 0}.ncard : Int)
          | _ => 0) = k} = {nl : List α | ∃ i, nl = [i] ∧ (Spec.HasNodeLayer cs.length al ops (i :: s) ∧
            ({j | Spec.readP cs.length false al ops s i j ≠ 0}.ncard : Int) = k)} := by
        ext nl
        constructor
        · rintro ⟨⟨i, rfl, h1⟩, h2⟩; exact ⟨i, rfl, h1, h2⟩
        · rintro ⟨i, rfl, h1, h2⟩; exact ⟨⟨i, rfl, h1⟩, h2⟩
      rw [this, ncard_single]
    · rw [e2']
      constructor
      · rintro ⟨⟨i, rfl, h1⟩, h2⟩; exact ⟨i, rfl, h1, h2⟩
      · rintro ⟨i, rfl, h1, h2⟩; exact ⟨⟨i, rfl, h1⟩, h2⟩
  have hform : ∀ L, Spec.HasLayer cs.length al ops L → ∃ s, L = .ofList s := by
    rintro L ⟨s, e, -⟩; exact ⟨s, e⟩
  constructor
  · obtain ⟨D, d1, d2⟩ := noteLayers_spec View.degsNodes (afterP cs false z al ops) (afterP cs false z al ops).iterLayers (by
      intro L hL
      have hL' := (hlay L).1 hL
      obtain ⟨s, rfl⟩ := hform L hL'
      obtain ⟨c, c1, -, E, e1, -⟩ := core s hL'
      exact ⟨c, E, c1, e1⟩)
    refine ⟨D, d1, fun L => ?_, fun s hs => ?_⟩
    · rw [Option.isSome_iff_exists]
      constructor
      · rintro ⟨x, hx⟩; exact (hlay L).1 ((d2 L x).1 hx).1
      · intro hL
        obtain ⟨s, rfl⟩ := hform L hL
        obtain ⟨c, c1, -, E, e1, -⟩ := core s hL
        exact ⟨E, (d2 _ _).2 ⟨(hlay _).2 hL, c, c1, e1⟩⟩
    · obtain ⟨c, c1, -, E, e1, e2⟩ := core s hs
      exact ⟨E, (d2 _ _).2 ⟨(hlay _).2 hs, c, c1, e1⟩, e2⟩
  · obtain ⟨D, d1, d2⟩ := noteLayers_spec View.degs (afterP cs false z al ops) (afterP cs false z al ops).iterLayers (by
      intro L hL
      have hL' := (hlay L).1 hL
      obtain ⟨s, rfl⟩ := hform L hL'
      obtain ⟨c, c1, ⟨E, e1, -⟩, -⟩ := core s hL'
      exact ⟨c, E, c1, e1⟩)
    refine ⟨D, d1, fun L => ?_, fun s hs => ?_⟩
    · rw [Option.isSome_iff_exists]
      constructor
      · rintro ⟨x, hx⟩; exact (hlay L).1 ((d2 L x).1 hx).1
      · intro hL
        obtain ⟨s, rfl⟩ := hform L hL
        obtain ⟨c, c1, ⟨E, e1, -⟩, -⟩ := core s hL
        exact ⟨E, (d2 _ _).2 ⟨(hlay _).2 hL, c, c1, e1⟩⟩
    · obtain ⟨c, c1, ⟨E, e1, e2⟩, -⟩ := core s hs
      exact ⟨E, (d2 _ _).2 ⟨(hlay _).2 hs, c, c1, e1⟩, e2⟩

/-- Internal: the density of one intra-layer network. -/
theorem layer_density (hcs : cs ≠ []) (hself : ∀ s i, Spec.readP cs.length dir al ops s i i = 0) {s : List α}
    (hs : Spec.HasLayer cs.length al ops (.ofList s)) :
    ∃ c, (afterP cs dir z al ops).child? (.ofList s) = some c ∧
      ({i | Spec.HasNodeLayer cs.length al ops (i :: s)}.ncard = 1 → c.view.density = .error .zeroDivisionError) ∧
      ({i | Spec.HasNodeLayer cs.length al ops (i :: s)}.ncard ≠ 1 → ∃ q : ℚ, c.view.density = .ok q ∧
        q = ({p : α × α | Spec.readP cs.length dir al ops s p.1 p.2 ≠ 0}.ncard : ℚ) /
          ({i | Spec.HasNodeLayer cs.length al ops (i :: s)}.ncard *
            ({i | Spec.HasNodeLayer cs.length al ops (i :: s)}.ncard - 1)) ∧ 0 ≤ q ∧ q ≤ 1) := by
  obtain ⟨c, c1, c2, c3, c4, c5, c6, c7, c8, c9⟩ := layer_facts (dir := dir) (z := z) hcs hs
  refine ⟨c, c1, ?_⟩
  have hN : {i | Spec.HasNodeLayer cs.length al ops (i :: s)}.ncard = (product c.view.slices).length := by
    rw [← ncard_single (α := α)]
    exact MNet.ncard_of_list c2.nodupP c8
  have hlen : (product c.view.slices).length = (c.view.slices.headD []).length ∧
      c.view.slices.drop 1 = [] := by
    have := c2.slen
    rw [c5] at this
    match hS : c.view.slices, this with
    | [S0], _ => simp [length_product]
  have hlinks : {p : List α × List α | (∃ i, p.1 = [i] ∧ Spec.HasNodeLayer cs.length al ops (i :: s)) ∧
      (∃ i, p.2 = [i] ∧ Spec.HasNodeLayer cs.length al ops (i :: s)) ∧ c.reads p.1 p.2 ≠ 0} =
      {p | ∃ i j, p.1 = [i] ∧ p.2 = [j] ∧ Spec.readP cs.length dir al ops s i j ≠ 0} := by
    ext ⟨x, y⟩
    constructor
    · rintro ⟨⟨i, hx, -⟩, ⟨j, hy, -⟩, h⟩
      simp only at hx hy h
      subst hx hy
      exact ⟨i, j, rfl, rfl, by rw [← c9]; exact h⟩
    · rintro ⟨i, j, hx, hy, h⟩
      simp only at hx hy
      subst hx hy
      have hr : c.reads [i] [j] ≠ c.noEdge := by rw [c9, show c.noEdge = 0 from c4]; exact h
      have hb := builtX_after cs dir z al ops
      obtain ⟨c', c1', k2, k3, -⟩ := hb.child hcs ((hasLayer_LYs (fun _ _ _ _ => Iff.rfl) s).1 hs)
      rw [c1] at c1'
      have : c = c' := Option.some.inj c1'
      subst this
      obtain ⟨⟨x, ex, hx⟩, y, ey, hy⟩ := k2.one k3 hr
      cases ex; cases ey
      have hmem : ∀ x, x ∈ c.slices.headD [] → Spec.HasNodeLayer cs.length al ops (x :: s) := by
        intro x hx
        have : [x] ∈ product c.view.slices := by
          have hsl := c2.slen
          rw [c5] at hsl
          change [x] ∈ product c.slices
          match hS : c.slices, (show c.slices.length = 1 from hsl) with
          | [S0], _ => rw [hS] at hx; exact mem_product_one.2 ⟨x, hx, rfl⟩
        obtain ⟨i, e, h⟩ := (c8 _).1 this
        cases e; exact h
      exact ⟨⟨i, rfl, hmem i hx⟩, ⟨j, rfl, hmem j hy⟩, by rw [c9]; exact h⟩
  obtain ⟨n, e1, -⟩ := c2.ordered (nls := c.nodeLayers) rfl
  constructor
  · intro h1
    rw [hN, hlen.1] at h1
    have hp : c.view.possibleEdges = 0 := by
      unfold View.possibleEdges
      rw [hlen.2, h1]
      simp
    unfold View.density
    rw [if_neg (by omega), e1]
    simp only [c3, hp, Bool.true_eq_false, if_false, if_true]
  · intro h1
    by_cases h0 : (product c.view.slices).length = 0
    · refine ⟨0, ?_, ?_, le_rfl, by norm_num⟩
      · unfold View.density
        rw [if_pos (by rw [← hlen.1]; exact h0)]
      · rw [hN, h0]; simp
    · have h2 : 2 ≤ {nl : List α | ∃ i, nl = [i] ∧ Spec.HasNodeLayer cs.length al ops (i :: s)}.ncard := by
        rw [ncard_single, hN]; rw [hN] at h1; omega
      obtain ⟨q, q1, q2, q3, q4, -⟩ := density_core (v := c.view) (R := c.reads)
        (NL := fun nl => ∃ i, nl = [i] ∧ Spec.HasNodeLayer cs.length al ops (i :: s))
        (R' := c.reads) c2 c3 c7 c8 (fun _ _ _ _ => rfl) (by
          rintro a ⟨i, rfl, -⟩; rw [c9, c4]; exact hself s i) h2
      refine ⟨q, q1, ?_, q3, q4⟩
      rw [q2, c4, hlinks, ncard_single2, ncard_single]

/-- **C96.** `multiplex_density(net)` of a network without self-links in which no layer has exactly one node has exactly
the layers as keys, and maps a layer to the number of ordered pairs of nodes linked in the layer over the number of all
ordered pairs of different nodes of the layer (0 for a layer without nodes). -/
theorem C96_density (hcs : cs ≠ []) (hself : ∀ s i, Spec.readP cs.length dir al ops s i i = 0)
    (hone : ∀ s, Spec.HasLayer cs.length al ops (.ofList s) → {i | Spec.HasNodeLayer cs.length al ops (i :: s)}.ncard ≠ 1) :
    ∃ D, (afterP cs dir z al ops).density = .ok D ∧
      (∀ L, (Dict.get D L).isSome = true ↔ Spec.HasLayer cs.length al ops L) ∧
      ∀ s, Spec.HasLayer cs.length al ops (.ofList s) → ∃ q : ℚ, Dict.get D (.ofList s) = some q ∧
        q = ({p : α × α | Spec.readP cs.length dir al ops s p.1 p.2 ≠ 0}.ncard : ℚ) /
          ({i | Spec.HasNodeLayer cs.length al ops (i :: s)}.ncard *
            ({i | Spec.HasNodeLayer cs.length al ops (i :: s)}.ncard - 1)) ∧ 0 ≤ q ∧ q ≤ 1 := by
  have hlay := (C25_layers hcs dir z al ops).2.2
  have hform : ∀ L, Spec.HasLayer cs.length al ops L → ∃ s, L = .ofList s := by
    rintro L ⟨s, e, -⟩; exact ⟨s, e⟩
  have core := fun s hs => layer_density (dir := dir) (z := z) hcs hself (s := s) hs
  obtain ⟨D, d1, d2⟩ := noteLayers_spec View.density (afterP cs dir z al ops) (afterP cs dir z al ops).iterLayers (by
    intro L hL
    have hL' := (hlay L).1 hL
    obtain ⟨s, rfl⟩ := hform L hL'
    obtain ⟨c, c1, -, c2⟩ := core s hL'
    obtain ⟨q, q1, -⟩ := c2 (hone s hL')
    exact ⟨c, q, c1, q1⟩)
  refine ⟨D, d1, fun L => ?_, fun s hs => ?_⟩
  · rw [Option.isSome_iff_exists]
    constructor
    · rintro ⟨x, hx⟩; exact (hlay L).1 ((d2 L x).1 hx).1
    · intro hL
      obtain ⟨s, rfl⟩ := hform L hL
      obtain ⟨c, c1, -, c2⟩ := core s hL
      obtain ⟨q, q1, -⟩ := c2 (hone s hL)
      exact ⟨q, (d2 _ _).2 ⟨(hlay _).2 hL, c, c1, q1⟩⟩
  · obtain ⟨c, c1, -, c2⟩ := core s hs
    obtain ⟨q, q1, q2⟩ := c2 (hone s hs)
    exact ⟨q, (d2 _ _).2 ⟨(hlay _).2 hs, c, c1, q1⟩, q2⟩

/-- **C96**, the calls that raise: `multiplex_density` raises `ZeroDivisionError` as soon as one layer has exactly one
node. -/
theorem C96_raises (hcs : cs ≠ []) (hself : ∀ s i, Spec.readP cs.length dir al ops s i i = 0) {s : List α}
    (hs : Spec.HasLayer cs.length al ops (.ofList s)) (hone : {i | Spec.HasNodeLayer cs.length al ops (i :: s)}.ncard = 1) :
    (afterP cs dir z al ops).density = .error .zeroDivisionError := by
  have hlay := (C25_layers hcs dir z al ops).2.2
  have hform : ∀ L, Spec.HasLayer cs.length al ops L → ∃ s, L = .ofList s := by
    rintro L ⟨s, e, -⟩; exact ⟨s, e⟩
  have key : ∀ (l : List (LKey α)) D, (∀ L ∈ l, L ∈ (afterP cs dir z al ops).iterLayers) → .ofList s ∈ l →
      forE (MPlex.noteLayer View.density (afterP cs dir z al ops)) l D = .error .zeroDivisionError := by
    intro l
    induction l with
    | nil => intro D _ h; cases h
    | cons L l ih =>
      intro D h1 h2
      have hL := (hlay L).1 (h1 L (by simp))
      obtain ⟨t, rfl⟩ := hform L hL
      obtain ⟨c, c1, c2, c3⟩ := layer_density (dir := dir) (z := z) hcs hself hL
      rw [forE]
      by_cases h : {i | Spec.HasNodeLayer cs.length al ops (i :: t)}.ncard = 1
      · have : MPlex.noteLayer View.density (afterP cs dir z al ops) D (.ofList t) = .error .zeroDivisionError := by
          unfold MPlex.noteLayer; rw [c1]; simp only [c2 h]
        rw [this]
      · obtain ⟨q, q1, -⟩ := c3 h
        have : MPlex.noteLayer View.density (afterP cs dir z al ops) D (.ofList t) = .ok (Dict.set D (.ofList t) q) := by
          unfold MPlex.noteLayer; rw [c1]; simp only [q1]
        rw [this]
        refine ih _ (fun L hL => h1 L (by simp [hL])) ?_
        rcases List.mem_cons.1 h2 with e | h2
        · have := ofList_inj' e
          subst this
          exact absurd hone h
        · exact h2
  exact key _ [] (fun _ h => h) ((hlay _).2 hs)

end

example : (afterP [.ordinal (1 : Int)] false 0 true samplePlex).density = .ok [(.el 10, 1 / 6), (.el 11, 1 / 3)] := by
  decide +kernel
example : (afterP [.ordinal (1 : Int)] false 0 true samplePlex).degs = .ok [(.el 10, [(1, 2), (0, 2)]),
    (.el 11, [(1, 2), (2, 1), (0, 1)])] := by decide +kernel
example : (afterP [.categorical (1 : Int)] false 0 false [.addNode (1 : Int) (some (.el 10))]).density =
    .error .zeroDivisionError := by decide +kernel

/-! ### C97 -/

/-- **C97 is false of the code**: `overlap_degs` raises `NameError` for every multiplex network. -/
theorem C97_false [Zero W] {cs : List (Coupling α W)} (hcs : cs ≠ []) (dir al : Bool) (z : W) (ops : List (POp α W)) :
    overlapDegs (afterP cs dir z al ops).slices = .error .nameError := by
  have hlen : (afterP cs dir z al ops).slices.length = cs.length + 1 := by
    rw [(after_pinv hcs dir z al ops).core.slen, (after_params hcs dir z al ops).1]
  have hpos : 1 ≤ cs.length := List.length_pos_iff.2 hcs
  unfold overlapDegs
  rw [List.getElem?_eq_getElem (by omega)]
  simp only
  rw [List.getElem?_eq_getElem (by omega)]

end Pymnet
