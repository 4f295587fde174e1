import Verif.Props.FullKeys
import Verif.Props.Isom

/-! C156-C159: doing a transformation twice. -/

set_option linter.unusedSectionVars false

namespace Pymnet

open Py MPlex

variable {α W : Type} [DecidableEq α] [DecidableEq W]

variable {m : MNet α W} {d : Nat} {z : W} {dir al : Bool} {S : Nat → α → Prop} {NL : List α → Prop} {R : List α → List α → W}

/-- Name `x` is selected in aspect `k`: there is no list for the aspect, or it is in the list. -/
def Spec.Admits (sel : List (Option (List α))) (k : Nat) (x : α) : Prop := ∀ l, sel[k]? = some (some l) → x ∈ l

/-! ### C156 -/

theorem selected_both {sel1 sel2 sel12 : List (Option (List α))}
    (hs : ∀ k ≤ d, ∀ x, Spec.Admits sel12 k x ↔ Spec.Admits sel1 k x ∧ Spec.Admits sel2 k x) {nl : List α} (hl : nl.length = d + 1) :
    Spec.Selected sel12 nl ↔ Spec.Selected sel1 nl ∧ Spec.Selected sel2 nl := by
  have hk : ∀ i x, nl[i]? = some x → i ≤ d := fun i x h => by have := (List.getElem?_eq_some_iff.1 h).1; omega
  constructor
  · intro h
    exact ⟨fun i x l h1 h2 => ((hs i (hk i x h1) x).1 fun l' h3 => h i x l' h1 h3).1 l h2,
      fun i x l h1 h2 => ((hs i (hk i x h1) x).1 fun l' h3 => h i x l' h1 h3).2 l h2⟩
  · rintro ⟨g1, g2⟩ i x l h1 h2
    exact (hs i (hk i x h1) x).2 ⟨fun l' h3 => g1 i x l' h1 h3, fun l' h3 => g2 i x l' h1 h3⟩ l h2

theorem subnet_full (h : Spec.Looks m d z dir al S NL R) {sel : List (Option (List α))} {nolinks : Bool} {m' : MNet α W}
    (e : m.subnet sel nolinks = .ok m') : m'.Full d := by
  refine MNet.full_subnetInto m.view _ _ ?_ (fun nls hnls nl hin => ?_) e
  · rw [h.aspects_eq]; exact MNet.Full.init ..
  · refine h.nl_length ((h.nodeLayers.2 nl).1 ?_)
    have : m.view.nodeLayers = .ok m.nodeLayers := rfl
    rw [this] at hnls; cases hnls; exact hin

/-- **C156.** For every general network, with any number of aspects, directed or not, node-aligned or not: the sub-network of a
sub-network is `==` to the sub-network of what is selected both times; `nolinks` in one of the steps is `nolinks` of both. -/
theorem C156_subnet_twice (h : Spec.Looks m d z dir al S NL R) {sel1 sel2 sel12 : List (Option (List α))}
    (h1 : sel1.length = d + 1) (h2 : sel2.length = d + 1) (h12 : sel12.length = d + 1)
    (hs : ∀ k ≤ d, ∀ x, Spec.Admits sel12 k x ↔ Spec.Admits sel1 k x ∧ Spec.Admits sel2 k x) (n1 n2 : Bool) :
    ∃ m1 m2 m12, m.subnet sel1 n1 = .ok m1 ∧ m1.subnet sel2 n2 = .ok m2 ∧ m.subnet sel12 (n1 || n2) = .ok m12 ∧
      m2.eq m12 = .ok true ∧ m12.eq m2 = .ok true := by
  obtain ⟨m1, e1, l1⟩ := C28_subnet_partial h h1 n1
  obtain ⟨m2, e2, l2⟩ := C28_subnet_partial l1 h2 n2
  obtain ⟨m12, e12, l12⟩ := C28_subnet_partial h h12 (n1 || n2)
  classical
  have l2' := l2.congr (S' := fun k x => if al = false ∧ k = 0 then ∃ nl, NL nl ∧ Spec.Selected sel12 nl ∧ nl[0]? = some x
          else S k x ∧ ∀ l, sel12[k]? = some (some l) → x ∈ l) (NL' := fun nl => NL nl ∧ Spec.Selected sel12 nl)
      (R' := fun u v => if (n1 || n2) = false ∧ Spec.Selected sel12 u ∧ Spec.Selected sel12 v then R u v else z)
    (fun k hk x => by
      by_cases hc : al = false ∧ k = 0
      · simp only [if_pos hc]
        constructor
        · rintro ⟨nl, ⟨g1, g2⟩, g3, g4⟩
          exact ⟨nl, g1, (selected_both hs (h.nl_length g1)).2 ⟨g2, g3⟩, g4⟩
        · rintro ⟨nl, g1, g2, g3⟩
          have := (selected_both hs (h.nl_length g1)).1 g2
          exact ⟨nl, ⟨g1, this.1⟩, this.2, g3⟩
      · simp only [if_neg hc, and_assoc]
        exact and_congr_right fun _ => (hs k hk x).symm)
    (fun nl => by
      rw [and_assoc]
      exact and_congr_right fun hn => (selected_both hs (h.nl_length hn)).symm)
    (fun u v hu hv => by
      have q1 := selected_both hs hu
      have q2 := selected_both hs hv
      rw [q1, q2]
      by_cases a1 : Spec.Selected sel1 u <;> by_cases a2 : Spec.Selected sel2 u <;> by_cases b1 : Spec.Selected sel1 v <;>
        by_cases b2 : Spec.Selected sel2 v <;> cases n1 <;> cases n2 <;> simp [a1, a2, b1, b2])
  exact ⟨m1, m2, m12, e1, e2, e12, l2'.eq_full l12 (subnet_full l1 e2) (subnet_full h e12),
    l12.eq_full l2' (subnet_full h e12) (subnet_full l1 e2)⟩

/-! ### C157 -/

theorem renamed_congr {f g : Nat → α → α} {nl : List α} (h : ∀ i x, nl[i]? = some x → f i x = g i x) :
    Spec.renamed f nl = Spec.renamed g nl := by
  unfold Spec.renamed
  apply List.ext_getElem?
  intro i
  rw [List.getElem?_mapIdx, List.getElem?_mapIdx]
  rcases e : nl[i]? with _ | x
  · rfl
  · simp [h i x e]

theorem renamed_renamed (f g : Nat → α → α) (nl : List α) :
    Spec.renamed g (Spec.renamed f nl) = Spec.renamed (fun k x => g k (f k x)) nl := by
  unfold Spec.renamed
  rw [List.mapIdx_mapIdx]; rfl

/-- Internal: the names in a node-layer are names of the network. -/
theorem Spec.Looks.names (h : Spec.Looks m d z dir al S NL R) {nl : List α} (hn : NL nl) :
    nl.length = d + 1 ∧ ∀ i x, nl[i]? = some x → i ≤ d ∧ S i x := by
  have h1 := (h.mem_product nl).1 (h.nl_product hn)
  refine ⟨h1.1, fun i x e => ⟨?_, h1.2 i x e⟩⟩
  have := (List.getElem?_eq_some_iff.1 e).1
  have := h1.1
  omega

/-- **C157.** For every general network: renaming nodes and elementary layers twice gives a network that is `==` to the one renamed
at once, if each of the renamings keeps different names different. -/
theorem C157_relabel_twice (h : Spec.Looks m d z dir al S NL R) (nodes1 nodes2 nodes12 : Dict α α) (layers1 layers2 layers12 : List (Dict α α))
    (h1 : ∀ k ≤ d, ∀ x y, S k x → S k y → Spec.newName nodes1 layers1 k x = Spec.newName nodes1 layers1 k y → x = y)
    (h2 : ∀ k ≤ d, ∀ x y, S k x → S k y → Spec.newName nodes2 layers2 k (Spec.newName nodes1 layers1 k x) =
      Spec.newName nodes2 layers2 k (Spec.newName nodes1 layers1 k y) →
      Spec.newName nodes1 layers1 k x = Spec.newName nodes1 layers1 k y)
    (h12 : ∀ k ≤ d, ∀ x, S k x → Spec.newName nodes12 layers12 k x =
      Spec.newName nodes2 layers2 k (Spec.newName nodes1 layers1 k x)) :
    ∃ m1 m2 m12, m.relabel nodes1 layers1 = .ok m1 ∧ m1.relabel nodes2 layers2 = .ok m2 ∧ m.relabel nodes12 layers12 = .ok m12 ∧
      m2.eq m12 = .ok true ∧ m12.eq m2 = .ok true := by
  obtain ⟨m1, R1, e1, l1, a1, b1⟩ := C30_relabel h nodes1 layers1 h1
  obtain ⟨m2, R2, e2, l2, a2, b2⟩ := C30_relabel l1 nodes2 layers2 (by
    rintro k hk _ _ ⟨x, hx, rfl⟩ ⟨y, hy, rfl⟩ he; exact h2 k hk x y hx hy he)
  obtain ⟨m12, R12, e12, l12, a12, b12⟩ := C30_relabel h nodes12 layers12 (by
    intro k hk x y hx hy he
    rw [h12 k hk x hx, h12 k hk y hy] at he
    exact h1 k hk x y hx hy (h2 k hk x y hx hy he))
  have hren : ∀ a, NL a → Spec.renamed (Spec.newName nodes2 layers2) (Spec.renamed (Spec.newName nodes1 layers1) a) =
      Spec.renamed (Spec.newName nodes12 layers12) a := by
    intro a ha
    rw [renamed_renamed]
    refine renamed_congr fun i x e => ?_
    obtain ⟨q1, q2⟩ := (h.names ha).2 i x e
    exact (h12 i q1 x q2).symm
  have l2' : Spec.Looks m2 d z dir al (fun k y => ∃ x, S k x ∧ y = Spec.newName nodes12 layers12 k x)
      (fun nl => ∃ a, NL a ∧ nl = Spec.renamed (Spec.newName nodes12 layers12) a) R12 := by
    refine l2.congr (fun k hk x => ?_) (fun nl => ?_) (fun u v _ _ => ?_)
    · constructor
      · rintro ⟨_, ⟨y, hy, rfl⟩, rfl⟩; exact ⟨y, hy, (h12 k hk y hy).symm⟩
      · rintro ⟨y, hy, rfl⟩; exact ⟨_, ⟨y, hy, rfl⟩, h12 k hk y hy⟩
    · constructor
      · rintro ⟨_, ⟨a, ha, rfl⟩, rfl⟩; exact ⟨a, ha, hren a ha⟩
      · rintro ⟨a, ha, rfl⟩; exact ⟨_, ⟨a, ha, rfl⟩, (hren a ha).symm⟩
    · by_cases hc : ∃ a b, NL a ∧ NL b ∧ u = Spec.renamed (Spec.newName nodes12 layers12) a ∧
          v = Spec.renamed (Spec.newName nodes12 layers12) b
      · obtain ⟨a, b, ha, hb, rfl, rfl⟩ := hc
        rw [a12 a b ha hb, ← hren a ha, ← hren b hb, a2 _ _ ⟨a, ha, rfl⟩ ⟨b, hb, rfl⟩, a1 a b ha hb]
      · have q1 : R12 u v = z := by
          by_contra hne
          obtain ⟨a, b, ha, hb, g1, g2⟩ := b12 u v hne
          exact hc ⟨a, b, ha, hb, g1, g2⟩
        have q2 : R2 u v = z := by
          by_contra hne
          obtain ⟨_, _, ⟨a, ha, rfl⟩, ⟨b, hb, rfl⟩, g1, g2⟩ := b2 u v hne
          rw [hren a ha] at g1
          rw [hren b hb] at g2
          exact hc ⟨a, b, ha, hb, g1, g2⟩
        rw [q1, q2]
  have f2 : m2.Full d := MNet.full_relabel l1.aspects_eq (fun nl hin => l1.nl_length ((l1.nodeLayers.2 nl).1 hin)) _ _ e2
  have f12 : m12.Full d := MNet.full_relabel h.aspects_eq (fun nl hin => h.nl_length ((h.nodeLayers.2 nl).1 hin)) _ _ e12
  exact ⟨m1, m2, m12, e1, e2, e12, l2'.eq_full l12 f2 f12, l12.eq_full l2' f12 f2⟩

/-! ### C158 -/

section isom

variable [LinearOrder α] {allowed : Option (List Nat)}

/-- **C158, renamed copies are isomorphic.** For every undirected general network with at least one aspect: if only names of the
allowed aspects change, and different names stay different, `is_isomorphic` of the network and its renamed copy is `True`, and the
complete invariants are the same, for every correct backend. -/
theorem C158_relabel_isomorphic {β : Type} (h : Spec.Looks m d z false al S NL R) (hd : 1 ≤ d) (hal : ∀ a ∈ Spec.mayChange d allowed, a ≤ d)
    (nodes : Dict α α) (layers : List (Dict α α))
    (hinj : ∀ k ≤ d, ∀ x y, S k x → S k y → Spec.newName nodes layers k x = Spec.newName nodes layers k y → x = y)
    (hfix : ∀ k ≤ d, k ∉ Spec.mayChange d allowed → ∀ x, Spec.newName nodes layers k x = x)
    {match? : CGraph → CGraph → Option (Dict Nat Nat)} (hF : Spec.FindsIso match?) {canon : CGraph → β} (hC : Spec.Canonical canon) :
    ∃ m' c, m.relabel nodes layers = .ok m' ∧ isIsomorphic match? m.view m'.view allowed = .ok true ∧
      completeInvariant canon m.view allowed = .ok c ∧ completeInvariant canon m'.view allowed = .ok c := by
  obtain ⟨m', R', e, l, a, b⟩ := C30_relabel h nodes layers hinj
  have iso : Spec.Isomorphism d (Spec.mayChange d allowed) S NL (fun u v => R u v ≠ z)
      (fun k y => ∃ x, S k x ∧ y = Spec.newName nodes layers k x)
      (fun nl => ∃ a, NL a ∧ nl = Spec.renamed (Spec.newName nodes layers) a) (fun u v => R' u v ≠ z) (Spec.newName nodes layers) := by
    refine ⟨hfix, fun k hk _ => ⟨fun x hx => ⟨x, hx, rfl⟩, fun x hx y hy he => hinj k hk x y hx hy he, ?_⟩, fun _ => Iff.rfl, ?_⟩
    · rintro _ ⟨x, hx, rfl⟩; exact ⟨x, hx, rfl⟩
    · intro u v hu hv
      have := a u v hu hv
      unfold Spec.renamed at this
      unfold Spec.applyTo
      rw [this]
  obtain ⟨c, c', q1, q2, q3⟩ := C56_complete_invariant h l hd hal hC
  obtain rfl := q3.2 ⟨_, iso⟩
  exact ⟨m', c, e, (C41_is_isomorphic_partial h l hd hal hF).1.2 ⟨_, iso⟩, q1, q2⟩

/-- **C158, the isomorphism renames the one network to the other.** For undirected networks with at least one aspect, the same
alignment and missing value, and all links of the weight `w`: if the networks are isomorphic, the dictionaries that
`get_isomorphism(net1,net2)` returns, given to `relabel(net1,...)` as names of the nodes and layers, give a network that is `==` to
the second one (whose layers in `add_node` were complete). -/
theorem C158_get_isomorphism_relabels {m' : MNet α W} {S' : Nat → α → Prop} {NL' : List α → Prop} {R' : List α → List α → W}
    (h : Spec.Looks m d z false al S NL R) (h' : Spec.Looks m' d z false al S' NL' R') (hd : 1 ≤ d) {w : W}
    (hw : ∀ u v, NL u → NL v → R u v = z ∨ R u v = w) (hw' : ∀ u v, NL' u → NL' v → R' u v = z ∨ R' u v = w)
    {ops : List (Op α W)} (hm' : m' = after d z false al ops) (hf : Spec.FullLayers d ops)
    {match? : CGraph → CGraph → Option (Dict Nat Nat)} (hF : Spec.FindsIso match?) (inc : Bool)
    (hiso : isIsomorphic match? m.view m'.view none = .ok true) :
    ∃ nodes layers m'', getIsomorphism match? m.view m'.view none inc = .ok (some (nodes :: layers)) ∧
      m.relabel nodes layers = .ok m'' ∧ m''.eq m' = .ok true ∧ m'.eq m'' = .ok true := by
  have hal : ∀ a ∈ Spec.mayChange d none, a ≤ d := fun a ha => by
    have := List.mem_range.1 ha; omega
  have hin : ∀ k ≤ d, k ∈ Spec.mayChange d none := fun k hk => List.mem_range.2 (by omega)
  obtain ⟨p, e, hlen, iso, -⟩ := (C55_get_isomorphism h h' hd hal hF inc).1 ((C41_is_isomorphic_partial h h' hd hal hF).1.1 hiso)
  obtain ⟨nodes, layers, rfl⟩ : ∃ nodes layers, p = nodes :: layers := by
    cases p with
    | nil => simp at hlen
    | cons a b => exact ⟨a, b, rfl⟩
  have hname : Spec.permOf (nodes :: layers) = Spec.newName nodes layers := by
    funext k x
    unfold Spec.permOf Spec.newName
    rcases (nodes :: layers)[k]? with _ | D <;> rfl
  rw [hname] at iso
  obtain ⟨m'', R'', e'', l, a, b⟩ := C30_relabel h nodes layers
    (fun k hk x y hx hy he => (iso.bij k hk (hin k hk)).injOn hx hy he)
  have l' : Spec.Looks m'' d z false al S' NL' R' := by
    refine l.congr (fun k hk x => ?_) (fun nl => ?_) (fun u v hu hv => ?_)
    · have hb := iso.bij k hk (hin k hk)
      constructor
      · rintro ⟨y, hy, rfl⟩; exact hb.mapsTo hy
      · intro hx
        obtain ⟨y, hy, rfl⟩ := hb.surjOn hx
        exact ⟨y, hy, rfl⟩
    · exact (iso.nodeLayers nl).symm
    · by_cases hc : ∃ x y, NL x ∧ NL y ∧ u = Spec.renamed (Spec.newName nodes layers) x ∧ v = Spec.renamed (Spec.newName nodes layers) y
      · obtain ⟨x, y, hx, hy, rfl, rfl⟩ := hc
        have hl := iso.links x y hx hy
        have := a x y hx hy
        rw [this]
        unfold Spec.applyTo at hl
        change (R x y ≠ z ↔ R' (Spec.renamed (Spec.newName nodes layers) x) (Spec.renamed (Spec.newName nodes layers) y) ≠ z) at hl
        rcases hw x y hx hy with q | q <;>
          rcases hw' (Spec.renamed (Spec.newName nodes layers) x) (Spec.renamed (Spec.newName nodes layers) y)
            ((iso.nodeLayers _).2 ⟨x, hx, rfl⟩) ((iso.nodeLayers _).2 ⟨y, hy, rfl⟩) with q' | q'
        · rw [q, q']
        · by_cases hz : w = z
          · rw [q, q', hz]
          · exact absurd q (hl.2 (by rw [q']; exact hz))
        · by_cases hz : w = z
          · rw [q, q', hz]
          · exact absurd q' (hl.1 (by rw [q]; exact hz))
        · rw [q, q']
      · have q1 : R'' u v = z := by
          by_contra hne
          obtain ⟨x, y, hx, hy, g1, g2⟩ := b u v hne
          exact hc ⟨x, y, hx, hy, g1, g2⟩
        have q2 : R' u v = z := by
          by_contra hne
          obtain ⟨⟨-, g1⟩, -, g2⟩ := h'.linked hu hv hne
          obtain ⟨x, hx, rfl⟩ := (iso.nodeLayers u).1 g1
          obtain ⟨y, hy, rfl⟩ := (iso.nodeLayers v).1 g2
          exact hc ⟨x, y, hx, hy, rfl, rfl⟩
        rw [q1, q2]
  have f1 : m''.Full d := MNet.full_relabel h.aspects_eq (fun nl hin => h.nl_length ((h.nodeLayers.2 nl).1 hin)) _ _ e''
  have f2 : m'.Full d := by rw [hm']; exact (MNet.Full.init d z false al).run ops hf
  exact ⟨nodes, layers, m'', e, e'', l'.eq_full h' f1 f2, h'.eq_full l' f2 f1⟩

end isom

/-! ### concrete cases -/

/-- the nodes 1 and 2 in the layers 10 and 11 of a network with two aspects -/
example : ∃ m1 m2 m12, (after 2 0 true false fullOps).subnet [some [1, 2, 3], none, none] false = .ok m1 ∧
    m1.subnet [some [2, 1], none, some [20]] false = .ok m2 ∧
    (after 2 0 true false fullOps).subnet [some [1, 2], none, some [20]] false = .ok m12 ∧
    m2.eq m12 = .ok true ∧ m12.eq m2 = .ok true ∧ m12.view.readItem [1, 2, 11, 20] = .ok (.weight 3) := by
  obtain ⟨m1, m2, m12, e1, e2, e3, e4, e5⟩ := C156_subnet_twice (network_looks 2 0 true false fullOps)
    (sel1 := [some [1, 2, 3], none, none]) (sel2 := [some [2, 1], none, some [20]]) (sel12 := [some [1, 2], none, some [20]])
    rfl rfl rfl (by
      intro k hk x
      have : k = 0 ∨ k = 1 ∨ k = 2 := by omega
      rcases this with rfl | rfl | rfl
      · simp [Spec.Admits]; omega
      · simp [Spec.Admits]
      · simp [Spec.Admits]) false false
  refine ⟨m1, m2, m12, e1, e2, e3, e4, e5, ?_⟩
  have : (after 2 0 true false fullOps).subnet [some [1, 2], none, some [20]] false = .ok m12 := e3
  cases this
  decide +kernel

/-- exchanging two names is one-to-one -/
theorem swap_inj (k x y : Nat) (h : Spec.newName [(1, 2), (2, 1)] [[], []] k x = Spec.newName [(1, 2), (2, 1)] [[], []] k y) : x = y := by
  rcases k with _ | _ | _ | k <;> simp [Spec.newName, Dict.get] at h <;> try exact h
  split_ifs at h <;> simp only [Option.getD_some, Option.getD_none] at h <;> omega

/-- the nodes 1 and 2 exchanged twice: `==` to the network renamed by nothing -/
example : ∃ m1 m2 m12, (after 2 0 true false fullOps).relabel [(1, 2), (2, 1)] [[], []] = .ok m1 ∧
    m1.relabel [(1, 2), (2, 1)] [[], []] = .ok m2 ∧ (after 2 0 true false fullOps).relabel [] [[], []] = .ok m12 ∧
    m2.eq m12 = .ok true ∧ m12.eq m2 = .ok true := by
  refine C157_relabel_twice (network_looks 2 0 true false fullOps) _ _ _ _ _ _ (fun k _ x y _ _ h => swap_inj k x y h)
    (fun k _ x y _ _ h => swap_inj k _ _ h) fun k hk x _ => ?_
  rcases k with _ | _ | _ | k <;> simp [Spec.newName, Dict.get]
  by_cases h1 : 1 = x
  · subst h1; simp
  · by_cases h2 : 2 = x
    · subst h2; simp
    · simp [h1, h2]

/-- the network with the nodes 1 and 2 exchanged is isomorphic to it, also when only nodes may change -/
example {match? : CGraph → CGraph → Option (Dict Nat Nat)} (hF : Spec.FindsIso match?) :
    ∃ m', (after 2 0 false true fullOps).relabel [(1, 2), (2, 1)] [[], []] = .ok m' ∧
      isIsomorphic match? (after 2 0 false true fullOps).view m'.view (some [0]) = .ok true := by
  obtain ⟨canon, hC⟩ := exists_canonical
  obtain ⟨m', c, e1, e2, -⟩ := C158_relabel_isomorphic (allowed := some [0]) (network_looks 2 0 false true fullOps) (by omega)
    (fun a ha => by simp [Spec.mayChange] at ha; omega) [(1, 2), (2, 1)] [[], []] (fun k _ x y _ _ h => swap_inj k x y h)
    (fun k hk hnot x => by
      rcases k with _ | _ | _ | k
      · simp [Spec.mayChange] at hnot
      all_goals simp [Spec.newName, Dict.get]) hF hC
  exact ⟨m', e1, e2⟩

/-- two networks of which all links have the weight 1; the second is the first with the nodes 1 and 2 and the layers exchanged -/
def oneOps : List (Op Nat Int) := [.setItem [1, 2, 10] 1, .setItem [2, 3, 11] 1]
def oneOps' : List (Op Nat Int) :=
  [.addNode 2 none, .addNode 1 none, .addNode 3 none, .addLayer 11 1, .addLayer 10 1, .setItem [2, 1, 11] 1, .setItem [1, 3, 10] 1]

theorem read_one (d : Nat) (dir : Bool) (u v : List Nat) (ops : List (Op Nat Int)) (h : ∀ i w, Op.setItem i w ∈ ops → w = 1) :
    Spec.read d dir 0 ops u v = 0 ∨ Spec.read d dir 0 ops u v = 1 := by
  have key : ∀ (ops : List (Op Nat Int)) (z : Int), (∀ i w, Op.setItem i w ∈ ops → w = 1) → z = 0 ∨ z = 1 →
      Spec.read d dir z ops u v = 0 ∨ Spec.read d dir z ops u v = 1 := by
    intro ops
    induction ops with
    | nil => intro z _ hz; exact hz
    | cons o t ih =>
      intro z ho hz
      refine ih _ (fun i w hi => ho i w (List.mem_cons_of_mem _ hi)) ?_
      cases o with
      | setItem i w =>
        have : w = 1 := ho i w List.mem_cons_self
        unfold Spec.written
        dsimp only
        split_ifs
        · right; simpa using this
        · simpa using hz
      | _ => simpa [Spec.written] using hz
  exact key ops 0 h (Or.inl rfl)

example {match? : CGraph → CGraph → Option (Dict Nat Nat)} (hF : Spec.FindsIso match?) :
    ∃ nodes layers m'', getIsomorphism match? (after 1 0 false true oneOps).view (after 1 0 false true oneOps').view none false =
        .ok (some (nodes :: layers)) ∧
      (after 1 0 false true oneOps).relabel nodes layers = .ok m'' ∧ m''.eq (after 1 0 false true oneOps') = .ok true := by
  obtain ⟨canon, hC⟩ := exists_canonical
  obtain ⟨m', c, e1, e2, -⟩ := C158_relabel_isomorphic (allowed := none) (network_looks 1 0 false true oneOps) (by omega)
    (fun a ha => by simp [Spec.mayChange] at ha; omega) [(1, 2), (2, 1)] [[(10, 11), (11, 10)]]
    (fun k _ x y _ _ h => by
      rcases k with _ | _ | k <;> simp [Spec.newName, Dict.get] at h <;> try exact h
      all_goals split_ifs at h <;> simp only [Option.getD_some, Option.getD_none] at h <;> omega)
    (fun k hk hnot x => absurd (List.mem_range.2 (by omega)) hnot) hF hC
  cases (show (after 1 0 false true oneOps).relabel [(1, 2), (2, 1)] [[(10, 11), (11, 10)]] = .ok (after 1 0 false true oneOps')
    from rfl).symm.trans e1
  obtain ⟨nodes, layers, m'', q1, q2, q3, -⟩ := C158_get_isomorphism_relabels (w := 1) (network_looks 1 0 false true oneOps)
    (network_looks 1 0 false true oneOps') (by omega)
    (fun u v _ _ => read_one 1 false u v _ (by intro i w hi; simp [oneOps] at hi; omega))
    (fun u v _ _ => read_one 1 false u v _ (by intro i w hi; simp [oneOps'] at hi; omega)) rfl
    (by intro n L hL; simp [oneOps'] at hL) hF false e2
  exact ⟨nodes, layers, m'', q1, q2, q3⟩

end Pymnet
