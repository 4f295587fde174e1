import Verif.Proofs.PlexHist
import Verif.Proofs.PlexCoup

/-! What the multiplex network holds after a history, in terms of the history. -/

set_option linter.unusedSectionVars false
set_option linter.unusedSimpArgs false
set_option linter.unnecessarySimpa false

namespace Pymnet

open Py

/-- Names that are not numbers: adding one raises `TypeError`. -/
instance : LawfulIntNames String where
  up := fun _ => none
  down := fun _ => none
  up_down := by intro a b; simp
  up_ne := by intro a; simp
  up_up := by intro a b; simp

variable {α W : Type} [DecidableEq α] [DecidableEq W]

/-- The network after constructing `MultiplexNetwork(couplings, directed, noEdge, fullyInterconnected)` and
making the calls `ops` (catching exceptions). -/
def afterP [Zero W] (cs : List (Coupling α W)) (directed : Bool) (noEdge : W) (aligned : Bool) (ops : List (POp α W)) :
    MPlex α W := (MPlex.init cs directed noEdge aligned).run ops

namespace MPlex

section
variable [Zero W] {cs : List (Coupling α W)} (hcs : cs ≠ []) (directed : Bool) (ne : W) (aligned : Bool)
  (ops : List (POp α W))

include hcs

theorem after_pinv : (afterP cs directed ne aligned ops).PInv := run_pinv (init_pinv cs hcs directed ne aligned) ops

theorem after_params : (afterP cs directed ne aligned ops).aspects = cs.length ∧
    (afterP cs directed ne aligned ops).directed = directed ∧ (afterP cs directed ne aligned ops).noEdge = ne ∧
    (afterP cs directed ne aligned ops).fic = aligned ∧ (afterP cs directed ne aligned ops).couplings = cs :=
  run_params (init_pinv cs hcs directed ne aligned) ops

theorem after_spec :
    (∀ x, (afterP cs directed ne aligned ops).inSlice 0 x ↔
      Spec.Happened (fun past op => Spec.NamesNodeP cs.length aligned x past op) ops) ∧
    (∀ a x, 1 ≤ a → ((afterP cs directed ne aligned ops).inSlice a x ↔
      ∃ op ∈ ops, Spec.NamesLayerP cs.length aligned a x op)) ∧
    (∀ L, ((afterP cs directed ne aligned ops).child? L).isSome = true ↔ Spec.HasLayer cs.length aligned ops L) ∧
    (aligned = false → ∀ s n, s.length = cs.length → ((afterP cs directed ne aligned ops).kid (.ofList s) n ↔
      Spec.Happened (fun past op => Spec.PutsOnLayer cs.length n s past op) ops)) ∧
    (∀ s a b, s.length = cs.length → ((afterP cs directed ne aligned ops).lkA (.ofList s) [a] [b]).getD 0 =
      Spec.readP cs.length directed aligned ops s a b) := run_spec cs hcs directed ne aligned ops

theorem after_snocP (op : POp α W) :
    afterP cs directed ne aligned (ops ++ [op]) = ((afterP cs directed ne aligned ops).step op).1 := run_snoc ..

theorem after_product (u : List α) : u ∈ product (afterP cs directed ne aligned ops).slices ↔
    ∃ n s, u = n :: s ∧ s.length = cs.length ∧ Spec.Happened (Spec.NamesNodeP cs.length aligned n) ops ∧
      Spec.HasLayer cs.length aligned ops (.ofList s) := by
  have hp := after_pinv hcs directed ne aligned ops
  have hpar := after_params hcs directed ne aligned ops
  obtain ⟨s0, s1, s2, -, -⟩ := after_spec hcs directed ne aligned ops
  rw [mem_product_iff hp.core, hpar.1]
  constructor
  · rintro ⟨hl, hr⟩
    match u, hl with
    | n :: s, hl =>
      refine ⟨n, s, rfl, by simpa using hl, (s0 n).1 (hr 0 n rfl), s, rfl, by simpa using hl, fun k x hx => ?_⟩
      exact (s1 (k + 1) x (by omega)).1 (hr (k + 1) x (by simpa using hx))
  · rintro ⟨n, s, rfl, hl, hn, s', hs', hl', hx⟩
    cases ofList_inj' hs'
    refine ⟨by simp [hl], fun a x ha => ?_⟩
    cases a with
    | zero => simp at ha; subst ha; exact (s0 n).2 hn
    | succ a => exact (s1 (a + 1) x (by omega)).2 (hx a x (by simpa using ha))

omit hcs [DecidableEq α] [DecidableEq W] [Zero W] in
theorem happened_mono {P : List (POp α W) → POp α W → Prop} {ops ops' : List (POp α W)}
    (h : Spec.Happened P ops) : Spec.Happened P (ops ++ ops') := by
  obtain ⟨past, op, rest, rfl, h⟩ := h
  exact ⟨past, op, rest ++ ops', by simp, h⟩

omit hcs [DecidableEq α] [DecidableEq W] [Zero W] in
theorem hasLayer_mono {aspects : Nat} {al : Bool} {ops ops' : List (POp α W)} {L : LKey α}
    (h : Spec.HasLayer aspects al ops L) : Spec.HasLayer aspects al (ops ++ ops') L := by
  obtain ⟨s, h1, h2, h3⟩ := h
  refine ⟨s, h1, h2, fun k x hx => ?_⟩
  obtain ⟨op, h4, h5⟩ := h3 k x hx
  exact ⟨op, by simp [h4], h5⟩

/-- The node-layers iterated are those the history put into the network. -/
theorem after_nodeLayers : ∃ l, (afterP cs directed ne aligned ops).nodeLayers = .ok l ∧ l.Nodup ∧
    ∀ u, u ∈ l ↔ Spec.HasNodeLayer cs.length aligned ops u := by
  have hp := after_pinv hcs directed ne aligned ops
  have hpar := after_params hcs directed ne aligned ops
  obtain ⟨s0, s1, s2, s3, -⟩ := after_spec hcs directed ne aligned ops
  obtain ⟨l, h1, h2, h3, h4⟩ := mem_nodeLayers hp.core
  refine ⟨l, h1, h2, fun u => ?_⟩
  have key : ∀ n s, s.length = cs.length → (n :: s ∈ l ↔
      ((aligned = true ∧ Spec.Happened (Spec.NamesNodeP cs.length aligned n) ops ∧
        Spec.HasLayer cs.length aligned ops (.ofList s)) ∨
       (aligned = false ∧ Spec.Happened (Spec.PutsOnLayer cs.length n s) ops))) := by
    intro n s hs
    rw [h4, after_product hcs, hpar.2.2.2.1]
    cases aligned with
    | true =>
      simp only [true_or, and_true, true_and, Bool.true_eq_false, false_and, or_false]
      constructor
      · rintro ⟨n', s', e, -, h⟩; cases e; exact h
      · intro h; exact ⟨n, s, rfl, hs, h⟩
    | false =>
      simp only [Bool.false_eq_true, false_or, false_and, true_and]
      rw [← s3 rfl s n hs]
      constructor
      · exact fun h => h.2
      · intro h
        refine ⟨⟨n, s, rfl, hs, (s0 n).1 (hp.core.ksub _ _ h), (s2 _).1 ?_⟩, h⟩
        obtain ⟨c, hc, -⟩ := h
        exact Option.isSome_iff_exists.2 ⟨c, hc⟩
  constructor
  · intro hu
    obtain ⟨n, s, rfl, hs, -⟩ := (after_product hcs directed ne aligned ops u).1 (h3 u hu)
    exact ⟨n, s, rfl, hs, (key n s hs).1 hu⟩
  · rintro ⟨n, s, rfl, hs, h⟩
    exact (key n s hs).2 h

theorem reg_cases {u : List α} (h : Spec.HasNodeLayer cs.length aligned ops u) :
    u ∈ product (afterP cs directed ne aligned ops).slices ∧ ∃ n s, u = n :: s ∧ s.length = cs.length ∧
      ((afterP cs directed ne aligned ops).fic = true ∨ (afterP cs directed ne aligned ops).kid (.ofList s) n) := by
  have hp := after_pinv hcs directed ne aligned ops
  obtain ⟨l, h1, -, h3⟩ := after_nodeLayers hcs directed ne aligned ops
  obtain ⟨l', h1', -, h3', h4'⟩ := mem_nodeLayers hp.core
  rw [h1] at h1'; cases h1'
  have hu := (h3 u).2 h
  refine ⟨h3' u hu, ?_⟩
  obtain ⟨n, s, rfl, hs, -⟩ := h
  exact ⟨n, s, rfl, hs, ((h4' n s).1 hu).2⟩

theorem reg_of {n : α} {s : List α} (hu : n :: s ∈ product (afterP cs directed ne aligned ops).slices)
    (hk : (afterP cs directed ne aligned ops).fic = true ∨ (afterP cs directed ne aligned ops).kid (.ofList s) n) :
    Spec.HasNodeLayer cs.length aligned ops (n :: s) := by
  have hp := after_pinv hcs directed ne aligned ops
  obtain ⟨l, h1, -, h3⟩ := after_nodeLayers hcs directed ne aligned ops
  obtain ⟨l', h1', -, h3', h4'⟩ := mem_nodeLayers hp.core
  rw [h1] at h1'; cases h1'
  exact (h3 _).1 ((h4' n s).2 ⟨hu, hk⟩)

/-- A link inside an existing layer reads what was last written to it. -/
theorem after_intra [IntNames α] {i j : α} {s : List α} (hij : i ≠ j)
    (hs : Spec.HasLayer cs.length aligned ops (.ofList s)) :
    (afterP cs directed ne aligned ops).getLink (interleave (i :: s) (j :: s)) =
      .ok (Spec.readP cs.length directed aligned ops s i j) := by
  have hp := after_pinv hcs directed ne aligned ops
  obtain ⟨-, -, s2, -, s4⟩ := after_spec hcs directed ne aligned ops
  obtain ⟨c, hc⟩ := Option.isSome_iff_exists.1 ((s2 _).2 hs)
  have hl : s.length = cs.length := by
    obtain ⟨s', e, h, -⟩ := hs
    cases ofList_inj' e; exact h
  rw [getLink_intra hc hij, lkA_reads hp.core hc, s4 s i j hl]

/-- The value read between registered node-layers, when every coupling is usable. -/
theorem after_read [LawfulIntNames α] (hU : Spec.Usable cs aligned ops) {u v : List α}
    (hu : Spec.HasNodeLayer cs.length aligned ops u) (hv : Spec.HasNodeLayer cs.length aligned ops v) :
    (∀ w, Spec.LinkWeight cs directed aligned ops u v w →
      (afterP cs directed 0 aligned ops).getLink (interleave u v) = .ok w ∧ w ≠ 0) ∧
    (¬ Spec.Linked cs directed aligned ops u v →
      (afterP cs directed 0 aligned ops).getLink (interleave u v) = .ok 0) := by
  have hp := after_pinv hcs directed 0 aligned ops
  have hpar := after_params hcs directed 0 aligned ops
  obtain ⟨pu, i, s, rfl, hs, ku⟩ := reg_cases hcs directed 0 aligned ops hu
  obtain ⟨pv, j, t, rfl, ht, kv⟩ := reg_cases hcs directed 0 aligned ops hv
  obtain ⟨-, s1, -, -, -⟩ := after_spec hcs directed 0 aligned ops
  set p := afterP cs directed 0 aligned ops with hpdef
  have hsL : Spec.HasLayer cs.length aligned ops (.ofList s) := by
    obtain ⟨n', s', e, -, -, h⟩ := (after_product hcs directed 0 aligned ops _).1 pu
    cases e; exact h
  have hname : ∀ {n : α} {r : List α}, n :: r ∈ product p.slices → ∀ d x, r[d]? = some x →
      ∃ op ∈ ops, Spec.NamesLayerP cs.length aligned (d + 1) x op := by
    intro n r hr d x hx
    exact (s1 (d + 1) x (by omega)).1 (((mem_product_iff hp.core _).1 hr).2 (d + 1) x (by simpa using hx))
  -- the coupling branch
  have coup : ∀ {d : Nat} {x y : α}, i = j → s[d]? = some x → x ≠ y → t = s.set d y → ∀ {c : Coupling α W},
      cs[d]? = some c → p.getLink (interleave (i :: s) (j :: t)) = p.couplingRead c x y := by
    intro d x y hij hx hxy htt c hc
    subst hij; subst htt
    rcases ku with hf | ku
    · refine getLink_aligned hf hx hxy ?_ (by rw [hpar.2.2.2.2]; exact hc)
      rw [head_inSlice (by rw [hp.core.slen]; omega)]
      exact ((mem_product_iff hp.core _).1 pu).2 0 i rfl
    · rcases kv with hf | kv
      · refine getLink_aligned hf hx hxy ?_ (by rw [hpar.2.2.2.2]; exact hc)
        rw [head_inSlice (by rw [hp.core.slen]; omega)]
        exact ((mem_product_iff hp.core _).1 pu).2 0 i rfl
      · by_cases hf : p.fic = true
        · refine getLink_aligned hf hx hxy ?_ (by rw [hpar.2.2.2.2]; exact hc)
          rw [head_inSlice (by rw [hp.core.slen]; omega)]
          exact ((mem_product_iff hp.core _).1 pu).2 0 i rfl
        · exact getLink_nonaligned_pos hp.core (by simpa using hf) hx hxy (by rw [hpar.2.2.2.2]; exact hc) ku kv
  have hord : ∀ {d : Nat} {x y : α} {w : W}, s[d]? = some x → t = s.set d y → cs[d]? = some (.ordinal w) →
      ∃ x' y', IntNames.up x = some x' ∧ IntNames.up y = some y' := by
    intro d x y w hx htt hc
    have hd : d < s.length := by
      rcases Nat.lt_or_ge d s.length with h | h
      · exact h
      · rw [List.getElem?_eq_none h] at hx; cases hx
    have h1 := (hU.ints d w x hc (hname pu d x hx)).1
    have h2 := (hU.ints d w y hc (hname pv d y (by rw [htt, List.getElem?_set]; simp [hd]))).1
    obtain ⟨x', hx'⟩ := Option.isSome_iff_exists.1 h1
    obtain ⟨y', hy'⟩ := Option.isSome_iff_exists.1 h2
    exact ⟨x', y', hx', hy'⟩
  constructor
  · rintro w (⟨i', j', s', e1, e2, hij, hw, hw0⟩ | ⟨i', s', t', e1, e2, d, x, y, hx, hxy, htt, hc⟩)
    · cases e1; cases e2
      exact ⟨by rw [after_intra hcs directed 0 aligned ops hij hsL, hw], hw0⟩
    · cases e1; cases e2
      rcases hc with hc | ⟨hc, hud⟩
      · obtain ⟨w', hw', h | h⟩ := hU.kind _ (List.mem_of_getElem? hc)
        · cases h
          exact ⟨by rw [coup rfl hx hxy htt hc]; rfl, hw'⟩
        · cases h
      · obtain ⟨w', hw', h | h⟩ := hU.kind _ (List.mem_of_getElem? hc)
        · cases h
        · cases h
          obtain ⟨x', y', hx', hy'⟩ := hord hx htt hc
          refine ⟨?_, hw'⟩
          rw [coup rfl hx hxy htt hc, couplingRead_ordinal w hx' hy', if_pos]
          rw [hx', hy'] at hud
          simp only [Option.some.injEq] at hud
          tauto
  · intro hno
    have hlen : (i :: s).length = (j :: t).length := by simp [hs, ht]
    by_cases hd : ∃ d, interAspects (interleave (i :: s) (j :: t)) 0 = [d]
    · obtain ⟨d, hd⟩ := hd
      cases d with
      | zero =>
        obtain ⟨hij, rfl⟩ := (interAspects_zero (by simpa using hlen)).1 hd
        rw [after_intra hcs directed 0 aligned ops hij hsL]
        by_cases hw : Spec.readP cs.length directed aligned ops s i j = 0
        · rw [hw]
        · exact absurd ⟨_, Or.inl ⟨i, j, s, rfl, rfl, hij, rfl, hw⟩⟩ hno
      | succ d =>
        obtain ⟨y, h1, h2, h3⟩ := (differ_iff hlen (d + 1)).1 hd
        simp only [List.set_cons_succ, List.cons.injEq] at h3
        simp only [List.getElem?_cons_succ, List.length_cons, Nat.add_lt_add_iff_right] at h1 h2
        obtain ⟨rfl, htt⟩ := h3
        obtain ⟨x, hx⟩ : ∃ x, s[d]? = some x := ⟨_, List.getElem?_eq_getElem h2⟩
        have hxy : x ≠ y := by rintro rfl; exact h1 hx
        obtain ⟨c, hc⟩ : ∃ c, cs[d]? = some c := ⟨_, List.getElem?_eq_getElem (by omega)⟩
        rw [coup rfl hx hxy htt hc]
        obtain ⟨w, hw, rfl | rfl⟩ := hU.kind _ (List.mem_of_getElem? hc)
        · exact absurd ⟨w, Or.inr ⟨j, s, t, rfl, rfl, d, x, y, hx, hxy, htt, Or.inl hc⟩⟩ hno
        · obtain ⟨x', y', hx', hy'⟩ := hord hx htt hc
          rw [couplingRead_ordinal w hx' hy', if_neg, hpar.2.2.1]
          intro h
          refine hno ⟨w, Or.inr ⟨j, s, t, rfl, rfl, d, x, y, hx, hxy, htt, Or.inr ⟨hc, ?_⟩⟩⟩
          rw [hx', hy']; simp only [Option.some.injEq]; tauto
    · rw [getLink_other (by simpa using hd), hpar.2.2.1]

/-- The value read between registered node-layers is the specified weight. -/
theorem after_weight [LawfulIntNames α] (hU : Spec.Usable cs aligned ops) {u v : List α}
    (hu : Spec.HasNodeLayer cs.length aligned ops u) (hv : Spec.HasNodeLayer cs.length aligned ops v) :
    (afterP cs directed 0 aligned ops).getLink (interleave u v) = .ok (Spec.weight cs directed aligned ops u v) ∧
    (Spec.weight cs directed aligned ops u v ≠ 0 ↔ Spec.Linked cs directed aligned ops u v) := by
  obtain ⟨h1, h2⟩ := after_read hcs directed aligned ops hU hu hv
  unfold Spec.weight
  by_cases h : ∃ w, Spec.LinkWeight cs directed aligned ops u v w
  · rw [dif_pos h]
    exact ⟨(h1 _ h.choose_spec).1, ⟨fun _ => h, fun _ => (h1 _ h.choose_spec).2⟩⟩
  · rw [dif_neg h]
    exact ⟨h2 h, ⟨fun h => absurd rfl h, fun h' => absurd h' h⟩⟩

theorem weight_of_linkWeight [LawfulIntNames α] (hU : Spec.Usable cs aligned ops) {u v : List α}
    (hu : Spec.HasNodeLayer cs.length aligned ops u) (hv : Spec.HasNodeLayer cs.length aligned ops v) {w : W}
    (h : Spec.LinkWeight cs directed aligned ops u v w) : Spec.weight cs directed aligned ops u v = w := by
  have h1 := (after_read hcs directed aligned ops hU hu hv).1 w h
  have h2 := (after_weight hcs directed aligned ops hU hu hv).1
  rw [h1.1] at h2
  simpa using h2.symm

theorem after_noself (hs : Spec.NoIntraSelf ops) : ∀ L a, (afterP cs directed ne aligned ops).lkA L [a] [a] = none := by
  refine run_noself (init_pinv cs hcs directed ne aligned) ?_ ops hs
  intro L a; simp [lkA, child?, init, Dict.get]

/-- The cases in which the iteration, degree and strength code is right. -/
theorem after_good [LawfulIntNames α] (hU : Spec.Usable cs aligned ops) (hs : Spec.NoIntraSelf ops)
    (hal : aligned = true ∨ ∃ w, cs = [.categorical w]) :
    (∀ u ∈ product (afterP cs directed 0 aligned ops).slices, (afterP cs directed 0 aligned ops).Good u) ∧
    ∀ u, Spec.HasNodeLayer cs.length aligned ops u → ∀ a, 1 ≤ a → ∀ l,
      (afterP cs directed 0 aligned ops).iterDim u a = .ok l → ∀ dir,
      (afterP cs directed 0 aligned ops).dimDegree u a dir = .ok (l.length : Int) := by
  have hp := after_pinv hcs directed 0 aligned ops
  have hpar := after_params hcs directed 0 aligned ops
  have hns := after_noself hcs directed 0 aligned ops hs
  obtain ⟨-, s1, -, -, -⟩ := after_spec hcs directed 0 aligned ops
  by_cases hf : aligned = true
  · have hc : ∀ d c, (afterP cs directed 0 aligned ops).couplings[d]? = some c →
        (afterP cs directed 0 aligned ops).CoupOk d c := by
      intro d c hc
      rw [hpar.2.2.2.2] at hc
      obtain ⟨w, hw, rfl | rfl⟩ := hU.kind _ (List.mem_of_getElem? hc)
      · exact hw
      · refine ⟨hw, fun x hx => hU.ints d w x hc ((s1 (d + 1) x (by omega)).1 hx)⟩
    refine ⟨fun u hu => (good_aligned hp (by rw [hpar.2.2.2.1, hf]) hpar.2.2.1 hns hc hu).1, fun u hu => ?_⟩
    exact (good_aligned hp (by rw [hpar.2.2.2.1, hf]) hpar.2.2.1 hns hc (reg_cases hcs directed 0 aligned ops hu).1).2
  · obtain ⟨w, hw⟩ := hal.resolve_left hf
    have hf : aligned = false := by simpa using hf
    have hw0 : w ≠ 0 := by
      obtain ⟨w', h, h' | h'⟩ := hU.kind (.categorical w) (by simp [hw])
      · cases h'; exact h
      · cases h'
    have G := fun u (hu : u ∈ product (afterP cs directed 0 aligned ops).slices) =>
      good_onecat hp (by rw [hpar.2.2.2.1, hf]) hpar.2.2.1 hns hw0 (by rw [hpar.2.2.2.2, hw]) hu
    refine ⟨fun u hu => (G u hu).1, fun u hu => ?_⟩
    obtain ⟨pu, n, s, rfl, hl, hk⟩ := reg_cases hcs directed 0 aligned ops hu
    refine (G _ pu).2 ?_
    replace hk := hk.resolve_left (by rw [hpar.2.2.2.1, hf]; simp)
    rw [hw] at hl
    match s, hl with
    | [x], _ => exact ⟨n, x, rfl, hk⟩

/-- Links lead from registered to registered node-layers. -/
theorem after_closed [LawfulIntNames α] (hs : Spec.NoIntraSelf ops) {u v : List α}
    (pu : u ∈ product (afterP cs directed 0 aligned ops).slices)
    (pv : v ∈ product (afterP cs directed 0 aligned ops).slices)
    (hR : (afterP cs directed 0 aligned ops).R u v ≠ 0) :
    Spec.HasNodeLayer cs.length aligned ops u ∧ Spec.HasNodeLayer cs.length aligned ops v := by
  have hp := after_pinv hcs directed 0 aligned ops
  have hpar := after_params hcs directed 0 aligned ops
  have hns := after_noself hcs directed 0 aligned ops hs
  obtain ⟨i, s, rfl, hl, -⟩ := (after_product hcs directed 0 aligned ops u).1 pu
  obtain ⟨j, t, rfl, hl', -⟩ := (after_product hcs directed 0 aligned ops v).1 pv
  by_cases hf : (afterP cs directed 0 aligned ops).fic = true
  · exact ⟨reg_of hcs directed 0 aligned ops pu (Or.inl hf), reg_of hcs directed 0 aligned ops pv (Or.inl hf)⟩
  · replace hR : (afterP cs directed 0 aligned ops).R (i :: s) (j :: t) ≠ (afterP cs directed 0 aligned ops).noEdge := by
      rw [hpar.2.2.1]; exact hR
    obtain ⟨a, y, h1, h2, h3⟩ := R_ne_differ (by simp [hl, hl']) hR
    have hk : (afterP cs directed 0 aligned ops).kid (.ofList s) i ∧ (afterP cs directed 0 aligned ops).kid (.ofList t) j := by
      cases a with
      | zero =>
        simp only [List.set_cons_zero, List.cons.injEq] at h3
        obtain ⟨rfl, rfl⟩ := h3
        exact kid_of_R hp.core hpar.2.2.1 hns pu hR
      | succ d =>
        simp only [List.set_cons_succ, List.cons.injEq] at h3
        simp only [List.getElem?_cons_succ, List.length_cons, Nat.add_lt_add_iff_right] at h1 h2
        obtain ⟨rfl, rfl⟩ := h3
        refine kid_of_inter hp.core (by simpa using hf) pu h1 ?_ hR
        exact ((mem_product_iff hp.core _).1 pv).2 (d + 1) y (by simp [h2])
    exact ⟨reg_of hcs directed 0 aligned ops pu (Or.inr hk.1), reg_of hcs directed 0 aligned ops pv (Or.inr hk.2)⟩

theorem mem_iff [LawfulIntNames α] (hU : Spec.Usable cs aligned ops) (hs : Spec.NoIntraSelf ops) {u v : List α}
    (hu : Spec.HasNodeLayer cs.length aligned ops u) :
    (v ∈ product (afterP cs directed 0 aligned ops).slices ∧ (afterP cs directed 0 aligned ops).R u v ≠ 0 ↔
      Spec.HasNodeLayer cs.length aligned ops v ∧ Spec.Linked cs directed aligned ops u v) ∧
    (v ∈ product (afterP cs directed 0 aligned ops).slices ∧ (afterP cs directed 0 aligned ops).R v u ≠ 0 ↔
      Spec.HasNodeLayer cs.length aligned ops v ∧ Spec.Linked cs directed aligned ops v u) := by
  have pu := (reg_cases hcs directed 0 aligned ops hu).1
  refine ⟨⟨?_, ?_⟩, ⟨?_, ?_⟩⟩
  · rintro ⟨pv, hR⟩
    have hv := (after_closed hcs directed aligned ops hs pu pv hR).2
    refine ⟨hv, ?_⟩
    obtain ⟨h1, h2⟩ := after_weight hcs directed aligned ops hU hu hv
    rw [R_eq, h1, okD_ok] at hR
    exact h2.1 hR
  · rintro ⟨hv, hl⟩
    obtain ⟨h1, h2⟩ := after_weight hcs directed aligned ops hU hu hv
    refine ⟨(reg_cases hcs directed 0 aligned ops hv).1, ?_⟩
    rw [R_eq, h1, okD_ok]; exact h2.2 hl
  · rintro ⟨pv, hR⟩
    have hv := (after_closed hcs directed aligned ops hs pv pu hR).1
    refine ⟨hv, ?_⟩
    obtain ⟨h1, h2⟩ := after_weight hcs directed aligned ops hU hv hu
    rw [R_eq, h1, okD_ok] at hR
    exact h2.1 hR
  · rintro ⟨hv, hl⟩
    obtain ⟨h1, h2⟩ := after_weight hcs directed aligned ops hU hv hu
    refine ⟨(reg_cases hcs directed 0 aligned ops hv).1, ?_⟩
    rw [R_eq, h1, okD_ok]; exact h2.2 hl

theorem R_symm_after [LawfulIntNames α] (hU : Spec.Usable cs aligned ops) (hs : Spec.NoIntraSelf ops)
    (hal : aligned = true ∨ ∃ w, cs = [.categorical w]) {u v : List α} (hd : directed = false)
    (hu : Spec.HasNodeLayer cs.length aligned ops u) (hv : Spec.HasNodeLayer cs.length aligned ops v) :
    Spec.weight cs directed aligned ops u v = Spec.weight cs directed aligned ops v u := by
  have hpar := after_params hcs directed 0 aligned ops
  have := R_symm (after_good hcs directed aligned ops hU hs hal).1 (by rw [hpar.2.1, hd])
    (reg_cases hcs directed 0 aligned ops hu).1 (reg_cases hcs directed 0 aligned ops hv).1
  rwa [R_eq, R_eq, (after_weight hcs directed aligned ops hU hu hv).1,
    (after_weight hcs directed aligned ops hU hv hu).1, okD_ok, okD_ok] at this

end

/-- The inter-layer part of the strength. -/
theorem after_dimStrength {W : Type} [DecidableEq W] [AddCommGroup W] [LawfulIntNames α] {cs : List (Coupling α W)}
    (hcs : cs ≠ []) (directed aligned : Bool) (ops : List (POp α W)) (hU : Spec.Usable cs aligned ops)
    (hs : Spec.NoIntraSelf ops) (hal : aligned = true ∨ ∃ w, cs = [.categorical w]) {u : List α}
    (hu : Spec.HasNodeLayer cs.length aligned ops u) :
    ∀ a, 1 ≤ a → ∀ l, (afterP cs directed 0 aligned ops).iterDim u a = .ok l → ∀ dir,
      (afterP cs directed 0 aligned ops).dimStrength u a dir =
        .ok ((l.map fun v => (afterP cs directed 0 aligned ops).R u v).sum) ∧
      (afterP cs directed 0 aligned ops).dimStrength u a dir =
        .ok ((l.map fun v => (afterP cs directed 0 aligned ops).R v u).sum) := by
  intro a h1 l hl dir
  have hp := after_pinv hcs directed 0 aligned ops
  have hpar := after_params hcs directed 0 aligned ops
  have pu := (reg_cases hcs directed 0 aligned ops hu).1
  obtain ⟨G, hdeg⟩ := after_good hcs directed aligned ops hU hs hal
  have g := G u pu
  have hd := hdeg u hu a h1 l hl dir
  by_cases h2 : a ≤ cs.length
  · obtain ⟨ns, hns⟩ := g.dims a h1 (by rw [hpar.1]; exact h2)
    rw [hns.iter] at hl; cases hl
    obtain ⟨c, hc⟩ : ∃ c, cs[a - 1]? = some c := ⟨_, List.getElem?_eq_getElem (by omega)⟩
    obtain ⟨w, hw0, hw⟩ := hU.kind c (List.mem_of_getElem? hc)
    have hR : ∀ y ∈ ns, (afterP cs directed 0 aligned ops).R u (u.set a y) = w := by
      intro y hy
      obtain ⟨n1, n2, n3⟩ := (hns.mem y).1 hy
      have pv := set_mem_product hp.core pu n1
      rw [hpar.2.2.1] at n3
      obtain ⟨hv, w', hw'⟩ := ((mem_iff hcs directed aligned ops hU hs hu).1.1 ⟨pv, n3⟩)
      rw [R_eq, ((after_read hcs directed aligned ops hU hu hv).1 w' hw').1, okD_ok]
      obtain ⟨i, s, rfl, hl, -⟩ := hu
      obtain ⟨d, rfl⟩ : ∃ d, a = d + 1 := ⟨a - 1, by omega⟩
      rcases hw' with ⟨i', j', s', e1, e2, hij, -⟩ | ⟨i', s', t', e1, e2, d', x, y', hx, hxy, htt, hc'⟩
      · simp only [List.set_cons_succ, List.cons.injEq] at e1 e2
        exact absurd (e1.1.symm.trans e2.1) hij
      · simp only [List.set_cons_succ, List.cons.injEq] at e1 e2
        obtain ⟨rfl, rfl⟩ := e1
        obtain ⟨-, rfl⟩ := e2
        have hdd : d' = d := by
          by_contra hne
          have hlt : d' < s.length := by
            rcases Nat.lt_or_ge d' s.length with h | h
            · exact h
            · rw [List.getElem?_eq_none h] at hx; cases hx
          have := congrArg (fun l => l[d']?) htt
          simp only [List.getElem?_set, hlt, if_true] at this
          rw [if_neg (Ne.symm hne), hx] at this
          exact hxy (by simpa using this)
        subst hdd
        simp only [Nat.add_sub_cancel] at hc
        rcases hw with rfl | rfl <;> rcases hc' with h | ⟨h, -⟩ <;> rw [hc] at h <;> cases h <;> rfl
    have hsum : ((ns.map (replaceAt u a)).map fun v => (afterP cs directed 0 aligned ops).R u v).sum =
        ((ns.map (replaceAt u a)).length : Int) • w := by
      rw [List.map_map, List.map_congr_left (g := fun _ => w)]
      · rw [List.map_const', List.sum_replicate, List.length_map, natCast_zsmul]
      · intro y hy; exact hR y hy
    have hsym : ((ns.map (replaceAt u a)).map fun v => (afterP cs directed 0 aligned ops).R v u) =
        ((ns.map (replaceAt u a)).map fun v => (afterP cs directed 0 aligned ops).R u v) := by
      rw [List.map_map, List.map_map]
      refine List.map_congr_left fun y hy => ?_
      obtain ⟨n1, n2, n3⟩ := (hns.mem y).1 hy
      exact (g.sym a h1 y n2 n1).symm
    rw [hsym, and_self, hsum]
    unfold dimStrength
    rw [hpar.2.2.2.2, hc]
    rcases hw with rfl | rfl <;> simp only [hd]
  · have : cs[a - 1]? = none := List.getElem?_eq_none (by omega)
    unfold iterDim at hl
    rw [hpar.2.2.2.2, this] at hl
    cases hl

end MPlex

end Pymnet
