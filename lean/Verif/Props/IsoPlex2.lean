import Verif.Props.IsoPlex

/-! The second half of C158 for multiplex networks. -/

set_option linter.unusedSectionVars false

namespace Pymnet

open Py MPlex

variable {α W : Type} [DecidableEq α] [DecidableEq W]

variable [Zero W] [LawfulIntNames α] {cs : List (Coupling α W)} {al : Bool} {ops : List (POp α W)}

/-- Internal: two node-layers of one layer are linked exactly if a link was written. -/
theorem linked_layer {s : List α} {i j : α} (hij : i ≠ j) :
    Spec.Linked cs false al ops (i :: s) (j :: s) ↔ Spec.readP cs.length false al ops s i j ≠ 0 := by
  constructor
  · rintro ⟨w, ⟨i', j', s', e1, e2, -, rfl, h⟩ | ⟨i', s', t', e1, e2, -⟩⟩
    · obtain ⟨rfl, rfl⟩ := List.cons.inj e1
      obtain ⟨rfl, -⟩ := List.cons.inj e2
      exact h
    · obtain ⟨rfl, -⟩ := List.cons.inj e1
      exact absurd (List.cons.inj e2).1.symm hij
  · intro h
    exact ⟨_, .inl ⟨i, j, s, rfl, rfl, hij, rfl, h⟩⟩

/-- Internal: without self-links no link from a node to itself can be read. -/
theorem readP_diag (hcs : cs ≠ []) (hn : Spec.NoIntraSelf ops) {s : List α} (hs : s.length = cs.length) (i : α) :
    Spec.readP cs.length false al ops s i i = 0 := by
  obtain ⟨-, -, -, -, s4⟩ := after_spec hcs false 0 al ops
  rw [← s4 s i i hs, after_noself hcs false 0 al ops hn]; rfl

/-- Internal: links are between node-layers. -/
theorem readP_nodeLayers (hcs : cs ≠ []) {s : List α} {i j : α} (hs : s.length = cs.length)
    (hne : Spec.readP cs.length false al ops s i j ≠ 0) :
    Spec.HasNodeLayer cs.length al ops (i :: s) ∧ Spec.HasNodeLayer cs.length al ops (j :: s) := by
  obtain ⟨hL, hi, hj⟩ := readP_ne hcs hs hne
  cases al with
  | true => exact ⟨⟨_, _, rfl, hs, .inl ⟨rfl, hi, hL⟩⟩, _, _, rfl, hs, .inl ⟨rfl, hj, hL⟩⟩
  | false =>
    have hb := builtX_after cs false 0 false ops
    obtain ⟨c, c1, c2, c3, c4, c5, -, c7, c8⟩ := hb.child hcs ((hasLayer_LYs (fun _ _ _ _ => Iff.rfl) s).1 hL)
    rw [← c8, ← c5] at hne
    obtain ⟨⟨x, ex, hx⟩, y, ey, hy⟩ := c2.one c3 hne
    cases ex; cases ey
    rw [c7] at hx hy
    simp only [Bool.false_eq_true, if_false] at hx hy
    exact ⟨⟨_, _, rfl, hs, .inr ⟨rfl, hx⟩⟩, _, _, rfl, hs, .inr ⟨rfl, hy⟩⟩

/-- **C158, the isomorphism renames the one multiplex network to the other.** For undirected multiplex networks with missing value 0 and the
same categorical or ordinal couplings, both node-aligned, or both with one aspect of categorical couplings, without self-links written
through an intra-layer network, and all links inside of layers of the weight `w`: if the networks are isomorphic, the dictionaries that
`get_isomorphism(net1,net2)` returns, given to `relabel(net1,...)` as names of the nodes and layers, give a network that is `==` to
the second one. -/
theorem C158_multiplisoOps_relabels [LinearOrder α] {ops' : List (POp α W)} (hU : Spec.Usable cs al ops) (hs : Spec.NoIntraSelf ops)
    (hal : al = true ∨ ∃ w, cs = [.categorical w]) (hU' : Spec.Usable cs al ops') (hs' : Spec.NoIntraSelf ops') {w : W}
    (hw : ∀ s i j, Spec.readP cs.length false al ops s i j = 0 ∨ Spec.readP cs.length false al ops s i j = w)
    (hw' : ∀ s i j, Spec.readP cs.length false al ops' s i j = 0 ∨ Spec.readP cs.length false al ops' s i j = w)
    {match? : CGraph → CGraph → Option (Dict Nat Nat)} (hF : Spec.FindsIso match?) (inc : Bool)
    (hiso : isIsomorphic match? (afterP cs false 0 al ops).view (afterP cs false 0 al ops').view none = .ok true) :
    ∃ nodes layers p, getIsomorphism match? (afterP cs false 0 al ops).view (afterP cs false 0 al ops').view none inc =
        .ok (some (nodes :: layers)) ∧
      (afterP cs false 0 al ops).relabel nodes layers = .ok p ∧ p.eq (afterP cs false 0 al ops') = .ok true ∧
      (afterP cs false 0 al ops').eq p = .ok true := by
  have hcs := hU.some_aspect
  have hnet : ∀ c, .net c ∉ cs := by
    intro c hc
    obtain ⟨w, -, h | h⟩ := hU.kind _ hc <;> cases h
  have haa : ∀ a ∈ Spec.mayChange cs.length none, a ≤ cs.length := fun a ha => by
    have := List.mem_range.1 ha; omega
  have hin : ∀ k ≤ cs.length, k ∈ Spec.mayChange cs.length none := fun k hk => List.mem_range.2 (by omega)
  have nm0 : ∀ {ops : List (POp α W)} x, Spec.HasNameP cs.length al ops 0 x ↔ Spec.Happened (Spec.NamesNodeP cs.length al x) ops := fun x => by
    unfold Spec.HasNameP; simp
  have nmS : ∀ {ops : List (POp α W)} a, 1 ≤ a → ∀ x, Spec.HasNameP cs.length al ops a x ↔ ∃ op ∈ ops, Spec.NamesLayerP cs.length al a x op := fun a ha x => by
    unfold Spec.HasNameP; rw [if_neg (by omega)]
  obtain ⟨p, e, hlen, iso, -⟩ := (C55_multiplex hU hs hal hU' hs' hal rfl haa hF inc).1
    ((C41_multiplex_partial hU hs hal hU' hs' hal rfl haa hF).1.1 hiso)
  obtain ⟨nodes, layers, rfl⟩ : ∃ nodes layers, p = nodes :: layers := by
    cases p with
    | nil => simp at hlen
    | cons a b => exact ⟨a, b, rfl⟩
  have hname : Spec.permOf (nodes :: layers) = Spec.newName nodes layers := by
    funext k x
    unfold Spec.permOf Spec.newName
    rcases (nodes :: layers)[k]? with _ | D <;> rfl
  rw [hname] at iso
  have hinj : ∀ k ≤ cs.length, ∀ x y, Spec.HasNameP cs.length al ops k x → Spec.HasNameP cs.length al ops k y →
      Spec.newName nodes layers k x = Spec.newName nodes layers k y → x = y :=
    fun k hk x y hx hy he => (iso.bij k hk (hin k hk)).injOn hx hy he
  obtain ⟨ops'', e1, l⟩ := C85_relabel (cs := cs) (dir := false) (z := 0) (al := al) hcs hnet hs nodes layers
    (fun x y hx hy => hinj 0 (by omega) x y ((nm0 x).2 hx) ((nm0 y).2 hy))
    (fun a ha hle x y hx hy => hinj a hle x y ((nmS a ha x).2 hx) ((nmS a ha y).2 hy))
  set f := Spec.newName nodes layers with hf
  have names : ∀ k ≤ cs.length, ∀ y, Spec.HasNameP cs.length al ops' k y ↔ ∃ x, Spec.HasNameP cs.length al ops k x ∧ y = f k x := by
    intro k hk y
    have hb := iso.bij k hk (hin k hk)
    constructor
    · intro hy
      obtain ⟨x, hx, rfl⟩ := hb.surjOn hy
      exact ⟨x, hx, rfl⟩
    · rintro ⟨x, hx, rfl⟩; exact hb.mapsTo hx
  have ren : ∀ (x : α) (s : List α), Spec.renamed f (x :: s) = f 0 x :: Spec.renamedLayer f s := fun x s => by
    unfold Spec.renamed Spec.renamedLayer; simp
  -- a link of the second network comes from node-layers of the first
  have both : ∀ s i j, Spec.HasNodeLayer cs.length al ops (i :: s) → Spec.HasNodeLayer cs.length al ops (j :: s) →
      Spec.readP cs.length false al ops'' (Spec.renamedLayer f s) (f 0 i) (f 0 j) =
        Spec.readP cs.length false al ops' (Spec.renamedLayer f s) (f 0 i) (f 0 j) := by
    intro s i j hi hj
    obtain ⟨i', s', e1, hlen, hin', hsn⟩ := hasNodeLayer_names hi
    obtain ⟨rfl, rfl⟩ := List.cons.inj e1
    obtain ⟨j', s', e2, -, hjn, -⟩ := hasNodeLayer_names hj
    obtain ⟨rfl, -⟩ := List.cons.inj e2
    rw [l.link _ _ _ ⟨s, rfl, hlen, hsn⟩ hin' hjn]
    have hlr : (Spec.renamedLayer f s).length = cs.length := by unfold Spec.renamedLayer; simpa using hlen
    by_cases hij : i = j
    · subst hij
      rw [readP_diag hcs hs hlen, readP_diag hcs hs' hlr]
    have hfij : f 0 i ≠ f 0 j := fun h => hij (hinj 0 (by omega) i j ((nm0 i).2 hin') ((nm0 j).2 hjn) h)
    have hl := iso.links _ _ hi hj
    have hi2 := (iso.nodeLayers _).2 ⟨_, hi, rfl⟩
    have hj2 := (iso.nodeLayers _).2 ⟨_, hj, rfl⟩
    change Spec.HasNodeLayer _ _ _ (Spec.renamed f _) at hi2 hj2
    change (Spec.weight cs false al ops (i :: s) (j :: s) ≠ 0 ↔
      Spec.weight cs false al ops' (Spec.renamed f (i :: s)) (Spec.renamed f (j :: s)) ≠ 0) at hl
    rw [(after_weight hcs false al ops hU hi hj).2, (after_weight hcs false al ops' hU' hi2 hj2).2, ren, ren,
      linked_layer hij, linked_layer hfij] at hl
    rcases hw s i j with q | q <;> rcases hw' (Spec.renamedLayer f s) (f 0 i) (f 0 j) with q' | q'
    · rw [q, q']
    · by_cases hz : w = 0
      · rw [q, q', hz]
      · exact absurd q (hl.2 (by rw [q']; exact hz))
    · by_cases hz : w = 0
      · rw [q, q', hz]
      · exact absurd q' (hl.1 (by rw [q]; exact hz))
    · rw [q, q']
  have same : Spec.SameContentP cs.length false al ops'' ops' := by
    refine ⟨fun n => ?_, fun a x ha => ?_, fun u => ?_, fun s i j hsl => ?_⟩
    · rw [l.nodes, ← nm0, names 0 (by omega)]
      simp only [nm0]
    · by_cases hle : a ≤ cs.length
      · rw [l.layers a x ha hle, ← nmS a ha, names a hle]
        simp only [nmS a ha]
      · exact ⟨fun ⟨op, _, h⟩ => absurd (namesLayerP_le ha h) hle, fun ⟨op, _, h⟩ => absurd (namesLayerP_le ha h) hle⟩
    · rw [l.nodeLayers, iso.nodeLayers]; rfl
    · obtain ⟨t, et, hlt, -⟩ := hsl
      cases ofList_inj' et
      have go : Spec.HasNodeLayer cs.length al ops' (i :: s) → Spec.HasNodeLayer cs.length al ops' (j :: s) →
          Spec.readP cs.length false al ops'' s i j = Spec.readP cs.length false al ops' s i j := by
        intro hi hj
        obtain ⟨u, hu, eu⟩ := (iso.nodeLayers _).1 hi
        obtain ⟨v, hv, ev⟩ := (iso.nodeLayers _).1 hj
        change i :: s = Spec.renamed f u at eu
        change j :: s = Spec.renamed f v at ev
        obtain ⟨i0, s0, rfl, hl0, -, hn0⟩ := hasNodeLayer_names hu
        obtain ⟨j0, t0, rfl, hm0, -, hk0⟩ := hasNodeLayer_names hv
        rw [ren] at eu ev
        obtain ⟨rfl, rfl⟩ := List.cons.inj eu
        obtain ⟨rfl, e3⟩ := List.cons.inj ev
        have : s0 = t0 := by
          apply List.ext_getElem (by omega)
          intro k h1 h2
          have h3 := congrArg (fun l => l[k]?) e3
          simp only [Spec.renamedLayer, List.getElem?_mapIdx, List.getElem?_eq_getElem h1, List.getElem?_eq_getElem h2,
            Option.map_some, Option.some.injEq] at h3
          exact hinj (k + 1) (by omega) _ _ ((nmS _ (by omega) _).2 (hn0 k _ (List.getElem?_eq_getElem h1)))
            ((nmS _ (by omega) _).2 (hk0 k _ (List.getElem?_eq_getElem h2))) h3
        subst this
        exact both _ _ _ hu hv
      by_cases q1 : Spec.readP cs.length false al ops' s i j = 0
      · by_cases q2 : Spec.readP cs.length false al ops'' s i j = 0
        · rw [q1, q2]
        · obtain ⟨g1, g2⟩ := readP_nodeLayers hcs hlt q2
          exact go ((iso.nodeLayers _).2 ((l.nodeLayers _).1 g1)) ((iso.nodeLayers _).2 ((l.nodeLayers _).1 g2))
      · obtain ⟨g1, g2⟩ := readP_nodeLayers hcs hlt q1
        exact go g1 g2
  have hnn : ∀ c ∈ cs, Spec.NotNet c := fun c hc m e => hnet m (e ▸ hc)
  obtain ⟨b, q1, q2⟩ := C51_eq hcs hcs hnn hnn false false 0 0 al al ops'' ops'
  obtain ⟨b', q1', q2'⟩ := C51_eq hcs hcs hnn hnn false false 0 0 al al ops' ops''
  obtain rfl := q2.2 ⟨rfl, rfl, rfl, rfl, same⟩
  obtain rfl := q2'.2 ⟨rfl, rfl, rfl, rfl, same.symm⟩
  exact ⟨nodes, layers, _, e, e1, q1, q1'⟩

/-! ### a concrete case -/

/-- Internal: what is read was written. -/
theorem readP_oneof {W : Type} [DecidableEq W] [Zero W] {d : Nat} {dir al : Bool} {w : W} {s : List α} {i j : α} (ops : List (POp α W))
    (h : ∀ op ∈ ops, ∀ pre v, Spec.writtenP d dir al s i j pre op = some v → v = w) :
    Spec.readP d dir al ops s i j = 0 ∨ Spec.readP d dir al ops s i j = w := by
  unfold Spec.readP
  suffices H : ∀ (ops : List (POp α W)) (st : List (POp α W) × W),
      (∀ op ∈ ops, ∀ pre v, Spec.writtenP d dir al s i j pre op = some v → v = w) → (st.2 = 0 ∨ st.2 = w) →
      (ops.foldl (fun (st : List (POp α W) × W) op =>
        (st.1 ++ [op], (Spec.writtenP d dir al s i j st.1 op).getD st.2)) st).2 = 0 ∨
      (ops.foldl (fun (st : List (POp α W) × W) op =>
        (st.1 ++ [op], (Spec.writtenP d dir al s i j st.1 op).getD st.2)) st).2 = w from H ops _ h (.inl rfl)
  intro ops
  induction ops with
  | nil => exact fun st _ h => h
  | cons op ops ih =>
    intro st h hst
    refine ih _ (fun o ho => h o (List.mem_cons_of_mem _ ho)) ?_
    rcases e : Spec.writtenP d dir al s i j st.1 op with _ | v
    · simpa [e] using hst
    · exact .inr (by simpa [e] using h op List.mem_cons_self _ _ e)

def isoOpsA : List (POp Int Int) := [.setItem [1, 2, 10] 5, .setItem [2, 3, 20] 5]
def isoOpsB : List (POp Int Int) := [.addNode 2 none, .addNode 1 none, .addNode 3 none, .addLayer 10 1, .addLayer 20 1,
  .setItem [2, 1, 10] 5, .setItem [1, 2, 10] 5, .setItem [1, 3, 20] 5, .setItem [3, 1, 20] 5]

theorem isoOps_relabel : (afterP [.categorical (1 : Int)] false 0 true isoOpsA).relabel [(1, 2), (2, 1)] [[]] =
    .ok (afterP [.categorical (1 : Int)] false 0 true isoOpsB) := by
  decide +kernel

/-- two different networks of three nodes on two layers -/
example {match? : CGraph → CGraph → Option (Dict Nat Nat)} (hF : Spec.FindsIso match?) :
    ∃ nodes layers p, getIsomorphism match? (afterP [.categorical (1 : Int)] false 0 true isoOpsA).view
        (afterP [.categorical (1 : Int)] false 0 true isoOpsB).view none false = .ok (some (nodes :: layers)) ∧
      (afterP [.categorical (1 : Int)] false 0 true isoOpsA).relabel nodes layers = .ok p ∧
      p.eq (afterP [.categorical (1 : Int)] false 0 true isoOpsB) = .ok true ∧
      (afterP [.categorical (1 : Int)] false 0 true isoOpsB).eq p = .ok true := by
  obtain ⟨canon, hC⟩ := exists_canonical
  have u : ∀ ops, Spec.Usable [.categorical (1 : Int)] true (ops : List (POp Int Int)) :=
    fun ops => ⟨by simp, by simp, by rintro (_ | d) w x h <;> simp at h⟩
  have hsA : Spec.NoIntraSelf isoOpsA := by intro L i w h; simp [isoOpsA] at h
  have hsB : Spec.NoIntraSelf isoOpsB := by intro L i w h; simp [isoOpsB] at h
  obtain ⟨p', c, e1, e2, -⟩ := C158_multiplex (cs := [.categorical (1 : Int)]) (al := true) (ops := isoOpsA) (allowed := none)
    (u _) hsA (Or.inl rfl) (fun a ha => by simp [Spec.mayChange] at ha; simp; omega) [(1, 2), (2, 1)] [[]]
    (fun k _ x y _ _ h => swapI_inj k x y h)
    (by rintro (_ | d) w x h <;> simp at h) (fun k hk hnot x => absurd (List.mem_range.2 (by omega)) hnot) hF hC
  rw [isoOps_relabel] at e1
  cases e1
  refine C158_multiplisoOps_relabels (u _) hsA (Or.inl rfl) (u _) hsB (w := 5) (fun s i j => ?_) (fun s i j => ?_) hF false e2
  · refine readP_oneof _ fun op hop pre v hv => ?_
    simp only [isoOpsA, List.mem_cons, List.not_mem_nil, or_false] at hop
    rcases hop with rfl | rfl <;> simp [Spec.writtenP] at hv <;> tauto
  · refine readP_oneof _ fun op hop pre v hv => ?_
    simp only [isoOpsB, List.mem_cons, List.not_mem_nil, or_false] at hop
    rcases hop with rfl | rfl | rfl | rfl | rfl | rfl | rfl | rfl | rfl <;> simp [Spec.writtenP] at hv <;> tauto

end Pymnet
