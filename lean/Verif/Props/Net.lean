import Verif.Proofs.History
import Verif.Proofs.Total
import Mathlib.Data.Sym.Sym2

/-!
Properties C01–C17: the general multilayer network.

`after aspects noEdge directed aligned ops` is the network the user has after constructing
`MultilayerNetwork(aspects, noEdge, directed, fullyInterconnected=aligned)` and making the calls `ops`
(catching exceptions). All statements quantify over all parameters and all histories.
-/

set_option linter.unusedSectionVars false

namespace Pymnet

open Py

variable {α W : Type} [DecidableEq α] [DecidableEq W]

/-- The network after a history of calls on a new network. -/
def after (aspects : Nat) (noEdge : W) (directed aligned : Bool) (ops : List (Op α W)) : MNet α W :=
  (MNet.init aspects noEdge directed aligned).run ops

section aux
variable (aspects : Nat) (noEdge : W) (directed aligned : Bool) (ops : List (Op α W))

theorem after_inv : (after aspects noEdge directed aligned ops).Inv :=
  MNet.run_inv (MNet.init_inv ..) ops

theorem after_aspects : (after aspects noEdge directed aligned ops).aspects = aspects :=
  (MNet.run_params (MNet.init_inv ..) ops).1

theorem after_directed : (after aspects noEdge directed aligned ops).directed = directed :=
  (MNet.run_params (MNet.init_inv ..) ops).2.1

theorem after_noEdge : (after aspects noEdge directed aligned ops).noEdge = noEdge :=
  (MNet.run_params (MNet.init_inv ..) ops).2.2.1

theorem after_fic : (after aspects noEdge directed aligned ops).fic = (decide (aspects = 0) || aligned) := by
  refine (MNet.run_params (MNet.init_inv ..) ops).2.2.2.trans ?_
  simp only [MNet.init]; split <;> simp_all

theorem after_reads (u v : List α) : (after aspects noEdge directed aligned ops).reads u v =
    Spec.read aspects directed noEdge ops u v := MNet.run_reads ..

theorem after_exists (u v : List α) : Spec.read aspects directed noEdge ops u v ≠ noEdge ↔
    ((after aspects noEdge directed aligned ops).lk u v).isSome = true := by
  rw [← MNet.reads_ne_noEdge (after_inv ..).l, after_reads, after_noEdge]

theorem after_snoc (op : Op α W) : after aspects noEdge directed aligned (ops ++ [op]) =
    ((after aspects noEdge directed aligned ops).step op).1 := MNet.run_snoc ..

theorem read_length {u v : List α} (h : Spec.read aspects directed noEdge ops u v ≠ noEdge) :
    u.length = aspects + 1 ∧ v.length = aspects + 1 := by
  rw [after_exists aspects noEdge directed true] at h
  have := MNet.lk_length (after_inv ..) h
  rwa [after_aspects] at this

end aux

/-- A history used in the non-vacuity examples: one aspect, two layers, a self-link, an overwrite, a
deletion, a wrong arity. -/
def sampleOps : List (Op Nat Int) :=
  [.addNode 7 none, .setItem [1, 2, 10] 5, .setItem [1, 3, 10, 11] 4, .setItem [1, 2, 10, 10] 6,
   .setItem [2, 2, 11] 3, .setItem [3, 1, 11, 10] 0, .setItem [1] 9, .addLayer 12 1]

/-! ### C01 -/

/-- **C01.** Reading a link returns the value of the last call that wrote it, and `noEdge` if none did. -/
theorem C01_read_last_write (aspects : Nat) (noEdge : W) (directed aligned : Bool)
    (ops : List (Op α W)) {item u v : List α} (h : Spec.Addresses aspects item u v) :
    (after aspects noEdge directed aligned ops).view.readItem item =
      .ok (.weight (Spec.read aspects directed noEdge ops u v)) := by
  have hl := MNet.getLink_interleave (after aspects noEdge directed aligned ops) (u := u) (v := v)
    (by rw [h.1, h.2.1]) (by rintro rfl; simp [Spec.Addresses] at h)
  rw [after_reads] at hl
  exact View.getItem_addresses (v := (after aspects noEdge directed aligned ops).view)
    (by change Spec.Addresses (after ..).aspects _ _ _; rw [after_aspects]; exact h) hl

/-- **C01**, frame: a write to one link changes what is read for no other link. -/
theorem C01_write_frame (aspects : Nat) (noEdge : W) (directed aligned : Bool)
    (ops : List (Op α W)) {item u v item' u' v' : List α} (w : W)
    (h : Spec.Addresses aspects item u v) (h' : Spec.Addresses aspects item' u' v')
    (hne : (u', v') ≠ (u, v)) (hne' : directed = false → (u', v') ≠ (v, u)) :
    (after aspects noEdge directed aligned (ops ++ [.setItem item w])).view.readItem item' =
      (after aspects noEdge directed aligned ops).view.readItem item' := by
  rw [C01_read_last_write aspects noEdge directed aligned _ h',
    C01_read_last_write aspects noEdge directed aligned _ h']
  have : Spec.written aspects directed u' v' (.setItem item w : Op α W) = none := by
    simp only [Spec.written]
    rw [if_neg]
    rintro (h1 | ⟨hd, h1⟩)
    · obtain ⟨rfl, rfl⟩ := addresses_unique h h1
      exact hne rfl
    · obtain ⟨rfl, rfl⟩ := addresses_unique h h1
      exact hne' hd rfl
  simp [Spec.read, List.foldl_append, this]

example : Spec.Addresses 1 [1, 2, 10] [1, 10] [2, 10] := ⟨rfl, rfl, Or.inr ⟨1, 2, [10], rfl, rfl, rfl⟩⟩
example : Spec.Addresses 1 [1, 3, 10, 11] [1, 10] [3, 11] := ⟨rfl, rfl, Or.inl rfl⟩
example : (after 1 0 false true sampleOps).view.readItem [2, 1, 10] = .ok (.weight 6) := by decide
example : (after 1 0 false true sampleOps).view.readItem [1, 3, 10, 11] = .ok (.weight 0) := by decide

/-! ### C02 -/

/-- **C02.** Undirected networks stay symmetric. -/
theorem C02_symmetric (aspects : Nat) (noEdge : W) (aligned : Bool) (ops : List (Op α W))
    {item item' u v : List α} (h : Spec.Addresses aspects item u v)
    (h' : Spec.Addresses aspects item' v u) :
    (after aspects noEdge false aligned ops).view.readItem item =
      (after aspects noEdge false aligned ops).view.readItem item' := by
  rw [C01_read_last_write aspects noEdge false aligned ops h,
    C01_read_last_write aspects noEdge false aligned ops h']
  rw [← after_reads aspects noEdge false aligned, ← after_reads aspects noEdge false aligned]
  unfold MNet.reads
  rw [(after_inv aspects noEdge false aligned ops).l.sym (after_directed ..)]

example : Spec.Addresses 1 [1, 3, 10, 11] [1, 10] [3, 11] ∧ Spec.Addresses 1 [3, 1, 11, 10] [3, 11] [1, 10] :=
  ⟨⟨rfl, rfl, Or.inl rfl⟩, ⟨rfl, rfl, Or.inl rfl⟩⟩

/-! ### C03 -/

/-- A possible restriction of neighbours: none, or one optional name per index. -/
def Spec.DimsFor (aspects : Nat) : Option (Dims α) → Prop
  | none => True
  | some ds => ds.length = aspects + 1

/-- A node-layer satisfies the restriction. -/
def Spec.Allowed (dims : Option (Dims α)) (n : List α) : Prop :=
  ∀ ds, dims = some ds → Spec.Matches ds n

theorem dimsOk_iff {aspects : Nat} {dims : Option (Dims α)} (h : Spec.DimsFor aspects dims) {n : List α}
    (hn : n.length = aspects + 1) : dimsOk dims n ↔ Spec.Allowed dims n := by
  cases dims with
  | none => simp [dimsOk, Spec.Allowed]
  | some ds =>
    simp only [Spec.DimsFor] at h
    simp only [dimsOk, Spec.Allowed, Option.some.injEq, forall_eq']
    exact matchDims_iff (by omega)

/-- **C03.** `iter_out` yields exactly the node-layers the node-layer links to, once each. -/
theorem C03_iter_out (aspects : Nat) (noEdge : W) (directed aligned : Bool) (ops : List (Op α W))
    (a : List α) {dims : Option (Dims α)} (hd : Spec.DimsFor aspects dims) :
    ∃ l, (after aspects noEdge directed aligned ops).view.iterOut a dims = .ok l ∧ l.Nodup ∧
      ∀ b, b ∈ l ↔ Spec.read aspects directed noEdge ops a b ≠ noEdge ∧ Spec.Allowed dims b := by
  refine ⟨_, rfl, MNet.iterOut_nodup (after_inv ..).l a dims, fun b => ?_⟩
  rw [MNet.mem_iterOut, ← after_exists]
  refine and_congr_right fun h => dimsOk_iff hd (read_length _ _ _ _ h).2

/-- **C03.** `iter_in` yields exactly the node-layers linking to the node-layer, once each. -/
theorem C03_iter_in (aspects : Nat) (noEdge : W) (directed aligned : Bool) (ops : List (Op α W))
    (a : List α) {dims : Option (Dims α)} (hd : Spec.DimsFor aspects dims) :
    ∃ l, (after aspects noEdge directed aligned ops).view.iterIn a dims = .ok l ∧ l.Nodup ∧
      ∀ b, b ∈ l ↔ Spec.read aspects directed noEdge ops b a ≠ noEdge ∧ Spec.Allowed dims b := by
  refine ⟨_, rfl, MNet.iterIn_nodup (after_inv ..).l a dims, fun b => ?_⟩
  rw [MNet.mem_iterIn (after_inv ..).l, ← after_exists]
  refine and_congr_right fun h => dimsOk_iff hd (read_length _ _ _ _ h).1

/-- **C03.** plain iteration yields exactly the in- or out-neighbours, once each. -/
theorem C03_iter_total (aspects : Nat) (noEdge : W) (directed aligned : Bool) (ops : List (Op α W))
    (a : List α) {dims : Option (Dims α)} (hd : Spec.DimsFor aspects dims) :
    ∃ l, (after aspects noEdge directed aligned ops).view.iterTotal a dims = .ok l ∧ l.Nodup ∧
      ∀ b, b ∈ l ↔ (Spec.read aspects directed noEdge ops a b ≠ noEdge ∨
        Spec.read aspects directed noEdge ops b a ≠ noEdge) ∧ Spec.Allowed dims b := by
  refine ⟨_, rfl, MNet.iterTotal_nodup (after_inv ..).l a dims, fun b => ?_⟩
  rw [MNet.mem_iterTotal (after_inv ..).l, ← after_exists, ← after_exists]
  refine and_congr_right fun h => dimsOk_iff hd ?_
  rcases h with h | h
  · exact (read_length _ _ _ _ h).2
  · exact (read_length _ _ _ _ h).1

example : Spec.DimsFor 1 (some [none, some 10]) := rfl
example : (after 1 0 true true sampleOps).view.iterOut [1, 10] (some [none, some 10]) = .ok [[2, 10]] := by
  decide

/-! ### C04 -/

/-- **C04.** `deg_out` is the number of node-layers linked to. -/
theorem C04_deg_out (aspects : Nat) (noEdge : W) (directed aligned : Bool) (ops : List (Op α W))
    (a : List α) {dims : Option (Dims α)} (hd : Spec.DimsFor aspects dims) :
    (after aspects noEdge directed aligned ops).view.degOut a dims =
      .ok ({b | Spec.read aspects directed noEdge ops a b ≠ noEdge ∧ Spec.Allowed dims b}.ncard : Int) := by
  obtain ⟨l, h1, h2, h3⟩ := C03_iter_out aspects noEdge directed aligned ops a hd
  rw [MNet.ncard_of_list h2 h3]
  cases h1
  simp only [MNet.view, MNet.degOut, MNet.degDict_eq, MNet.iterOut]

/-- **C04.** `deg_in` is the number of node-layers linking to the node-layer. -/
theorem C04_deg_in (aspects : Nat) (noEdge : W) (directed aligned : Bool) (ops : List (Op α W))
    (a : List α) {dims : Option (Dims α)} (hd : Spec.DimsFor aspects dims) :
    (after aspects noEdge directed aligned ops).view.degIn a dims =
      .ok ({b | Spec.read aspects directed noEdge ops b a ≠ noEdge ∧ Spec.Allowed dims b}.ncard : Int) := by
  obtain ⟨l, h1, h2, h3⟩ := C03_iter_in aspects noEdge directed aligned ops a hd
  rw [MNet.ncard_of_list h2 h3]
  cases h1
  simp only [MNet.view, MNet.degIn, MNet.degInDir, MNet.degOut, MNet.degDict_eq, MNet.iterIn,
    MNet.iterInDir, MNet.iterOut]
  split <;> rfl

/-- **C04.** `deg` of an undirected network is the number of neighbours. -/
theorem C04_deg_undirected (aspects : Nat) (noEdge : W) (aligned : Bool) (ops : List (Op α W))
    (a : List α) {dims : Option (Dims α)} (hd : Spec.DimsFor aspects dims) :
    (after aspects noEdge false aligned ops).view.deg a dims =
      .ok ({b | Spec.read aspects false noEdge ops a b ≠ noEdge ∧ Spec.Allowed dims b}.ncard : Int) := by
  have := C04_deg_out aspects noEdge false aligned ops a hd
  rw [← this]
  simp only [MNet.view, MNet.deg, after_directed, Bool.false_eq_true, if_false]

example : (after 1 0 false true sampleOps).view.deg [2, 10] none = .ok 1 := by decide

/-! ### C05 -/

/-- **C05, exact value.** In a directed network the total degree reported is the number of distinct
in- or out-neighbours *plus* the number of calls in the history that deleted a link into the node-layer
while there was no reciprocal link. The documented property (the plain number of neighbours) therefore
holds exactly when no such call was made. -/
theorem C05_total_degree_exact (aspects : Nat) (noEdge : W) (aligned : Bool) (ops : List (Op α W))
    (a : List α) :
    (after aspects noEdge true aligned ops).view.deg a none =
      .ok (({b | Spec.read aspects true noEdge ops a b ≠ noEdge ∨
              Spec.read aspects true noEdge ops b a ≠ noEdge}.ncard : Int) +
        ({k | Spec.DeletesOneWay aspects noEdge ops a k}.ncard : Int)) := by
  have h := MNet.run_total aspects noEdge aligned ops a
  have hs : {b | Spec.read aspects true noEdge ops a b ≠ noEdge ∨
      Spec.read aspects true noEdge ops b a ≠ noEdge} =
      ((MNet.init aspects noEdge true aligned).run ops).nbrs a := by
    ext b
    exact or_congr (after_exists aspects noEdge true aligned ops a b)
      (after_exists aspects noEdge true aligned ops b a)
  rw [hs, ← h]
  simp only [MNet.view, MNet.deg, MNet.degTotal, MNet.degTotalDir, after_directed, if_true]
  rfl

/-- **C05, partial.** Without deletions the total degree is the number of distinct neighbours.
Missing from the full statement: histories that delete links. -/
theorem C05_total_degree_partial (aspects : Nat) (noEdge : W) (aligned : Bool) (ops : List (Op α W))
    (hno : ∀ item, Op.setItem item noEdge ∉ ops) (a : List α) :
    (after aspects noEdge true aligned ops).view.deg a none =
      .ok ({b | Spec.read aspects true noEdge ops a b ≠ noEdge ∨
              Spec.read aspects true noEdge ops b a ≠ noEdge}.ncard : Int) := by
  rw [C05_total_degree_exact]
  have : {k | Spec.DeletesOneWay aspects noEdge ops a k} = ∅ := by
    ext k
    simp only [Set.mem_ofPred_eq, Set.mem_empty_iff_false, iff_false]
    rintro ⟨u, op, -, h2, h3, -⟩
    cases op with
    | addNode n l => simp [Spec.written] at h3
    | addLayer n l => simp [Spec.written] at h3
    | setItem i w =>
      simp only [Spec.written] at h3
      split at h3
      · cases h3
        exact hno i (List.mem_of_getElem? h2)
      · cases h3
  rw [this]; simp

/-- **C05, restricted form.** With an explicit restriction the total degree is always the number of
matching neighbours. -/
theorem C05_total_degree_restricted (aspects : Nat) (noEdge : W) (aligned : Bool) (ops : List (Op α W))
    (a : List α) (ds : Dims α) (hd : ds.length = aspects + 1) :
    (after aspects noEdge true aligned ops).view.deg a (some ds) =
      .ok ({b | (Spec.read aspects true noEdge ops a b ≠ noEdge ∨
              Spec.read aspects true noEdge ops b a ≠ noEdge) ∧ Spec.Matches ds b}.ncard : Int) := by
  obtain ⟨l, h1, h2, h3⟩ := C03_iter_total aspects noEdge true aligned ops a (dims := some ds) hd
  simp only [Spec.Allowed, Option.some.injEq, forall_eq'] at h3
  rw [MNet.ncard_of_list h2 h3]
  cases h1
  simp only [MNet.view, MNet.deg, MNet.degTotal, MNet.degTotalDir, after_directed, if_true]

/-- **C05 is false of the code**: after `net[0,1]=1; net[0,1]=0` node 1 has no neighbours but total
degree 1. -/
theorem C05_false :
    (after 0 (0 : Int) true true [.setItem [0, 1] 1, .setItem [0, 1] 0]).view.deg [1] none = .ok 1 ∧
    (after 0 (0 : Int) true true [.setItem [0, 1] 1, .setItem [0, 1] 0]).view.iterTotal [1] none = .ok [] := by
  decide

example : ∀ item, Op.setItem item (0 : Int) ∉ [Op.setItem [0, 1] 1, Op.setItem [1, 0] 2, Op.setItem [1, 1] 2] := by
  simp

/-! ### C06 -/

/-- **C06.** `str_out` is the sum of the weights of the outgoing links. -/
theorem C06_str_out [AddCommMonoid W] (aspects : Nat) (noEdge : W) (directed aligned : Bool)
    (ops : List (Op α W)) (a : List α) {dims : Option (Dims α)} (hd : Spec.DimsFor aspects dims) :
    (after aspects noEdge directed aligned ops).strOut a dims =
      .ok (∑ᶠ b ∈ {b | Spec.read aspects directed noEdge ops a b ≠ noEdge ∧ Spec.Allowed dims b},
        Spec.read aspects directed noEdge ops a b) := by
  obtain ⟨l, h1, h2, h3⟩ := C03_iter_out aspects noEdge directed aligned ops a hd
  rw [MNet.finsum_of_list h2 h3, MNet.strOut_spec (after_inv ..)]
  cases h1
  simp only [after_reads]

/-- **C06.** `str_in` is the sum of the weights of the incoming links. -/
theorem C06_str_in [AddCommMonoid W] (aspects : Nat) (noEdge : W) (directed aligned : Bool)
    (ops : List (Op α W)) (a : List α) {dims : Option (Dims α)} (hd : Spec.DimsFor aspects dims) :
    (after aspects noEdge directed aligned ops).strIn a dims =
      .ok (∑ᶠ b ∈ {b | Spec.read aspects directed noEdge ops b a ≠ noEdge ∧ Spec.Allowed dims b},
        Spec.read aspects directed noEdge ops b a) := by
  obtain ⟨l, h1, h2, h3⟩ := C03_iter_in aspects noEdge directed aligned ops a hd
  rw [MNet.finsum_of_list h2 h3, MNet.strIn_spec (after_inv ..)]
  cases h1
  simp only [after_reads]

/-- **C06.** `str` of an undirected network is the sum of the weights of its links. -/
theorem C06_str_undirected [AddCommMonoid W] (aspects : Nat) (noEdge : W) (aligned : Bool)
    (ops : List (Op α W)) (a : List α) {dims : Option (Dims α)} (hd : Spec.DimsFor aspects dims) :
    (after aspects noEdge false aligned ops).str a dims =
      .ok (∑ᶠ b ∈ {b | Spec.read aspects false noEdge ops a b ≠ noEdge ∧ Spec.Allowed dims b},
        Spec.read aspects false noEdge ops a b) := by
  rw [← C06_str_out aspects noEdge false aligned ops a hd]
  simp only [MNet.str, after_directed, Bool.false_eq_true, if_false]

/-- **C06.** The total strength of a directed network is in-strength plus out-strength. -/
theorem C06_str_directed [AddCommMonoid W] (aspects : Nat) (noEdge : W) (aligned : Bool)
    (ops : List (Op α W)) (a : List α) {dims : Option (Dims α)} (hd : Spec.DimsFor aspects dims) :
    (after aspects noEdge true aligned ops).str a dims =
      .ok ((∑ᶠ b ∈ {b | Spec.read aspects true noEdge ops b a ≠ noEdge ∧ Spec.Allowed dims b},
          Spec.read aspects true noEdge ops b a) +
        ∑ᶠ b ∈ {b | Spec.read aspects true noEdge ops a b ≠ noEdge ∧ Spec.Allowed dims b},
          Spec.read aspects true noEdge ops a b) := by
  simp only [MNet.str, MNet.strTotalDir, after_directed, if_true]
  rw [C06_str_out aspects noEdge true aligned ops a hd, C06_str_in aspects noEdge true aligned ops a hd]

example : (after 1 0 true true (sampleOps ++ [.setItem [1, 7, 10, 12] 2])).strOut [1, 10] none = .ok 12 := by
  decide

/-! ### C07 -/

/-- **C07, partial.** Writing `noEdge` with an index tuple addressing a link removes the link, from the
reads and from the neighbour iteration. It raises (a `KeyError`) exactly when the network is undirected
and the link is an existing self-link; the link is removed even then.
Missing from the full statement: it raises in that case. -/
theorem C07_delete_partial (aspects : Nat) (noEdge : W) (directed aligned : Bool) (ops : List (Op α W))
    {item u v : List α} (h : Spec.Addresses aspects item u v) :
    ((after aspects noEdge directed aligned ops).setItem item noEdge).2 =
      (open Classical in
       if directed = false ∧ u = v ∧ Spec.read aspects directed noEdge ops u v ≠ noEdge
       then some .keyError else none) ∧
    Spec.read aspects directed noEdge (ops ++ [.setItem item noEdge]) u v = noEdge ∧
    ∃ l, (after aspects noEdge directed aligned (ops ++ [.setItem item noEdge])).view.iterOut u none = .ok l ∧
      v ∉ l := by
  have h' : Spec.Addresses (after aspects noEdge directed aligned ops).aspects item u v := by
    rw [after_aspects]; exact h
  have hread : Spec.read aspects directed noEdge (ops ++ [.setItem item noEdge]) u v = noEdge := by
    simp only [Spec.read, List.foldl_append, List.foldl_cons, List.foldl_nil, Spec.written]
    rw [if_pos (Or.inl h)]; rfl
  refine ⟨?_, hread, ?_⟩
  · obtain ⟨h1, -⟩ := MNet.setItem_spec (after_inv aspects noEdge directed aligned ops) h' noEdge
    rw [h1]
    simp only [after_noEdge, after_directed, true_and, ← after_exists]
  · obtain ⟨l, h1, -, h3⟩ := C03_iter_out aspects noEdge directed aligned (ops ++ [.setItem item noEdge]) u
      (dims := none) trivial
    exact ⟨l, h1, fun hm => ((h3 v).1 hm).1 hread⟩

/-- **C07 is false of the code**: deleting an existing self-link of an undirected network raises. -/
theorem C07_false :
    ((after 0 (0 : Int) false true [.setItem [1, 1] 5]).setItem [1, 1] 0).2 = some .keyError := by decide

example : Spec.Addresses 1 [1, 3, 10, 11] [1, 10] [3, 11] := ⟨rfl, rfl, Or.inl rfl⟩

/-! ### C08 -/

/-- **C08.** The nodes are exactly those named by some call, each once. -/
theorem C08_nodes (aspects : Nat) (noEdge : W) (directed aligned : Bool) (ops : List (Op α W)) :
    ((after aspects noEdge directed aligned ops).iterNodes none).Nodup ∧
    ∀ x, x ∈ (after aspects noEdge directed aligned ops).iterNodes none ↔
      ∃ op ∈ ops, Spec.NamesNode aspects x op := by
  have hinv := after_inv aspects noEdge directed aligned ops
  have hs := MNet.slices_split hinv.r
  refine ⟨hinv.r.snodup _ (by rw [hs]; exact List.mem_cons_self), fun x => ?_⟩
  rw [← MNet.run_inSlice0 aspects noEdge directed aligned]
  change x ∈ (after aspects noEdge directed aligned ops).slices.headD [] ↔
    (after aspects noEdge directed aligned ops).inSlice 0 x
  unfold MNet.inSlice
  rw [hs]; simp

/-- **C08.** The elementary layers of each aspect are exactly those named by some call, each once. -/
theorem C08_layers (aspects : Nat) (noEdge : W) (directed aligned : Bool) (ops : List (Op α W))
    {a : Nat} (h1 : 1 ≤ a) (h2 : a ≤ aspects) :
    ∃ l, (after aspects noEdge directed aligned ops).getLayers a = .ok l ∧ l.Nodup ∧
      ∀ x, x ∈ l ↔ ∃ op ∈ ops, Spec.NamesLayer aspects (decide (aspects = 0) || aligned) a x op := by
  have hinv := after_inv aspects noEdge directed aligned ops
  have hl : a < (after aspects noEdge directed aligned ops).slices.length := by
    rw [hinv.r.slen, after_aspects]; omega
  refine ⟨(after aspects noEdge directed aligned ops).slices[a], ?_, hinv.r.snodup _ (by simp), fun x => ?_⟩
  · unfold MNet.getLayers; simp [hl]
  · rw [← MNet.run_inSlice aspects noEdge directed aligned ops a h1]
    change _ ↔ (after aspects noEdge directed aligned ops).inSlice a x
    unfold MNet.inSlice; simp [hl]

/-- **C08.** Nothing is ever removed from the registries. -/
theorem C08_monotone (aspects : Nat) (noEdge : W) (directed aligned : Bool) (ops ops' : List (Op α W)) :
    (∀ x ∈ (after aspects noEdge directed aligned ops).iterNodes none,
      x ∈ (after aspects noEdge directed aligned (ops ++ ops')).iterNodes none) ∧
    ∀ a l l', 1 ≤ a → a ≤ aspects → (after aspects noEdge directed aligned ops).getLayers a = .ok l →
      (after aspects noEdge directed aligned (ops ++ ops')).getLayers a = .ok l' → ∀ x ∈ l, x ∈ l' := by
  constructor
  · intro x hx
    rw [(C08_nodes ..).2] at hx ⊢
    obtain ⟨op, h1, h2⟩ := hx
    exact ⟨op, by simp [h1], h2⟩
  · intro a l l' h1 h2 hl hl' x hx
    obtain ⟨k, k1, -, k3⟩ := C08_layers aspects noEdge directed aligned ops h1 h2
    obtain ⟨k', k1', -, k3'⟩ := C08_layers aspects noEdge directed aligned (ops ++ ops') h1 h2
    rw [hl] at k1; cases k1
    rw [hl'] at k1'; cases k1'
    rw [k3] at hx; rw [k3']
    obtain ⟨op, h3, h4⟩ := hx
    exact ⟨op, by simp [h3], h4⟩

/-- **C08.** The endpoints of an existing link are made of registered nodes and layers. -/
theorem C08_edge_endpoints (aspects : Nat) (noEdge : W) (directed aligned : Bool) (ops : List (Op α W))
    {u v : List α} (h : Spec.read aspects directed noEdge ops u v ≠ noEdge) :
    ∀ nl ∈ [u, v], ∃ n s, nl = n :: s ∧ s.length = aspects ∧
      n ∈ (after aspects noEdge directed aligned ops).iterNodes none ∧
      ∀ (a : Nat) x, s[a]? = some x →
        ∃ l, (after aspects noEdge directed aligned ops).getLayers (a + 1) = .ok l ∧ x ∈ l := by
  have hinv := after_inv aspects noEdge directed aligned ops
  rw [after_exists aspects noEdge directed aligned] at h
  obtain ⟨w, hw⟩ := Option.isSome_iff_exists.1 h
  have hreg := hinv.reg u v w hw
  have key : ∀ nl, (after aspects noEdge directed aligned ops).Reg nl → ∃ n s, nl = n :: s ∧ s.length = aspects ∧
      n ∈ (after aspects noEdge directed aligned ops).iterNodes none ∧
      ∀ (a : Nat) x, s[a]? = some x →
        ∃ l, (after aspects noEdge directed aligned ops).getLayers (a + 1) = .ok l ∧ x ∈ l := by
    rintro nl ⟨hl, hr⟩
    rw [after_aspects] at hl
    match nl, hl with
    | n :: s, hl =>
      refine ⟨n, s, rfl, by simpa using hl, ?_, ?_⟩
      · obtain ⟨t, ht, hn⟩ := hr 0 n (by simp)
        have hs := MNet.slices_split hinv.r
        change n ∈ (after aspects noEdge directed aligned ops).slices.headD []
        rw [hs, List.getElem?_cons_zero, Option.some.injEq] at ht; rw [ht]; exact hn
      · intro a x hx
        obtain ⟨t, ht, hn⟩ := hr (a + 1) x (by simpa using hx)
        exact ⟨t, by unfold MNet.getLayers; rw [ht], hn⟩
  intro nl hnl
  simp only [List.mem_cons, List.not_mem_nil, or_false] at hnl
  rcases hnl with rfl | rfl
  · exact key _ hreg.1
  · exact key _ hreg.2

example : Spec.read 1 false 0 sampleOps [1, 10] [2, 10] ≠ 0 := by
  rw [after_exists 1 0 false true]; decide
example : (after 1 0 false true sampleOps).getLayers 1 = .ok [10, 11, 12] := by decide

/-! ### C09 -/

/-- **C09.** The short form reads what the long form reads. -/
theorem C09_short_form_read (m : MNet α W) (i j : α) (s : List α) (h : s.length = m.aspects) :
    m.view.readItem (i :: j :: s) = m.view.readItem (Spec.link (i :: s) (j :: s)) := by
  have hlk : m.view.getLink (interleave (i :: s) (j :: s)) = .ok (m.reads (i :: s) (j :: s)) :=
    MNet.getLink_interleave m (u := i :: s) (v := j :: s) (by simp) (by simp)
  rw [View.getItem_addresses (a := i :: s) (b := j :: s) ⟨by simp [h, MNet.view], by simp [h, MNet.view],
      Or.inr ⟨i, j, s, rfl, rfl, rfl⟩⟩ hlk,
    View.getItem_addresses (a := i :: s) (b := j :: s) ⟨by simp [h, MNet.view], by simp [h, MNet.view],
      Or.inl rfl⟩ hlk]

/-- **C09.** The short form writes what the long form writes. -/
theorem C09_short_form_write (m : MNet α W) (i j : α) (s : List α) (h : s.length = m.aspects) (w : W) :
    m.setItem (i :: j :: s) w = m.setItem (Spec.link (i :: s) (j :: s)) w := by
  unfold MNet.setItem
  have hl : (Spec.link (i :: s) (j :: s)).length = 2 * (m.aspects + 1) := by
    rw [← interleave_eq_link, length_interleave (by simp)]; simp [h]
  have e : Spec.link (i :: s) (j :: s) = shortLinkToLink (i :: j :: s) := by
    rw [shortLinkToLink_cons, interleave_eq_link]
  simp only [hl, true_or, if_true]
  rw [if_pos (Or.inr (by simp [h]))]
  split
  · rename_i hc
    have : s = [] := by
      simp [h] at hc
      exact List.length_eq_zero_iff.1 (by omega)
    subst this
    rfl
  · rw [e]

/-- **C09.** Any other number of indices raises `KeyError` and changes nothing. (`d+1` indices make a
node object, so reading with them is not an error.) -/
theorem C09_wrong_arity (m : MNet α W) (item : List α) (h1 : item.length ≠ 2 * (m.aspects + 1))
    (h2 : item.length ≠ m.aspects + 2) (w : W) :
    m.setItem item w = (m, some .keyError) ∧
    (item.length ≠ m.aspects + 1 → m.view.readItem item = .error .keyError) := by
  refine ⟨MNet.setItem_arity m (by omega) w, fun h3 => ?_⟩
  unfold View.readItem View.getItem
  simp only [List.length_map]
  change (if item.length = m.aspects + 1 then _ else if item.length = 2 * (m.aspects + 1) then _ else
    if item.length = m.aspects + 1 + 1 then _ else _) = _
  rw [if_neg h3, if_neg h1, if_neg (by omega)]

example : (after 2 (0 : Int) false true [.setItem [1, 2, 5, 6] 3]).view.readItem [1, 2, 5, 5, 6, 6] =
    .ok (.weight 3) := by decide
example : ([1, 2, 3, 4, 5] : List Nat).length ≠ 2 * (2 + 1) ∧ ([1, 2, 3, 4, 5] : List Nat).length ≠ 2 + 2 := by
  decide

/-! ### C10 -/

/-- **C10.** node-layers → link → node-layers. -/
theorem C10_nodes_link_nodes {u v : List α} (h : u.length = v.length) (hu : u ≠ []) :
    ∃ l, nodesToLink u v = .ok l ∧ l = Spec.link u v ∧ linkToNodes l = .ok (u, v) := by
  refine ⟨interleave u v, by simp [nodesToLink, h], interleave_eq_link u v, ?_⟩
  exact linkToNodes_interleave h hu

/-- **C10.** link → node-layers → link. -/
theorem C10_link_nodes_link {l : List α} {k : Nat} (h : l.length = 2 * (k + 1)) :
    ∃ u v, linkToNodes l = .ok (u, v) ∧ u.length = k + 1 ∧ v.length = k + 1 ∧ nodesToLink u v = .ok l := by
  obtain ⟨h1, h2, h3⟩ := exists_interleave l _ h
  refine ⟨evens l, odds l, ?_, h2, h3, by simp only [nodesToLink, h2, h3, if_true]; rw [← h1]⟩
  have := linkToNodes_interleave (u := evens l) (v := odds l) (by omega)
    (by intro e; rw [e] at h2; simp at h2)
  rwa [← h1] at this

/-- **C10.** Node-layers of different lengths are rejected. -/
theorem C10_mismatch {u v : List α} (h : u.length ≠ v.length) :
    nodesToLink u v = .error .assertionError := by simp [nodesToLink, h]

example : linkToNodes [1, 2, 3, 4, 5, 6] = .ok ([1, 3, 5], [2, 4, 6]) := by rfl

/-! ### C11 -/

/-- The restriction the user asks for with the index tuple: the names given at the second index of each
aspect, no restriction where there is a colon. -/
def Spec.requested : List (Idx α) → Dims α
  | _ :: .val b :: t => some b :: Spec.requested t
  | _ :: .colon :: t => none :: Spec.requested t
  | _ => []

/-- the second index of each aspect is a colon or equals the first -/
def Spec.OwnOrColon : List (Idx α) → Prop
  | .val a :: .val b :: t => a = b ∧ Spec.OwnOrColon t
  | .val _ :: .colon :: t => Spec.OwnOrColon t
  | [] => True
  | _ => False

/-- **C11, partial.** When every requested index is a colon or the node-layer's own index, slicing gives
the node restricted as requested. Missing: any other requested index (see `C11_false`). -/
theorem C11_slice_partial (v : View α W) (item : List (Idx α)) (hl : item.length = 2 * (v.aspects + 1))
    (hown : Spec.OwnOrColon item) (hcol : .colon ∈ item) :
    ∃ n, View.evenVals? item = some n ∧
      v.getItem item = .ok (.node n (some (Spec.requested item))) := by
  have key : ∀ k (item : List (Idx α)), item.length = 2 * k → Spec.OwnOrColon item →
      ∃ n, View.evenVals? item = some n ∧ View.sliceDims item = some (Spec.requested item) := by
    intro k
    induction k with
    | zero =>
      intro item h _
      have : item = [] := List.length_eq_zero_iff.1 (by omega)
      subst this; exact ⟨[], rfl, rfl⟩
    | succ k ih =>
      intro item h ho
      match item, h, ho with
      | .val a :: .val b :: t, h, ho =>
        obtain ⟨rfl, ho⟩ := ho
        obtain ⟨n, h1, h2⟩ := ih t (by simp at h; omega) ho
        exact ⟨a :: n, by simp [View.evenVals?, h1], by simp [View.sliceDims, h2, Spec.requested]⟩
      | .val a :: .colon :: t, h, ho =>
        obtain ⟨n, h1, h2⟩ := ih t (by simp at h; omega) ho
        exact ⟨a :: n, by simp [View.evenVals?, h1], by simp [View.sliceDims, h2, Spec.requested]⟩
  have hv : ∀ item : List (Idx α), .colon ∈ item → View.vals? item = none := by
    intro item
    induction item with
    | nil => simp
    | cons x t ih =>
      intro h
      cases x with
      | colon => rfl
      | val a =>
        simp at h
        simp [View.vals?, ih h]
  obtain ⟨n, h1, h2⟩ := key _ item hl hown
  refine ⟨n, h1, ?_⟩
  unfold View.getItem View.getFull
  rw [if_neg (by omega), if_pos hl, hv item hcol, h1, h2]

/-- **C11 is false of the code**: `net[1,2,10,:]` must show only links from `(1,10)` to node 2, but the
object returned is restricted to node 1. -/
theorem C11_false :
    (after 1 0 false true sampleOps).view.getItem [.val 1, .val 2, .val 10, .colon] =
      .ok (.node [1, 10] (some [some 1, none])) ∧
    (after 1 0 false true sampleOps).view.iterOut [1, 10] (some [some 2, none]) = .ok [[2, 10]] ∧
    (after 1 0 false true sampleOps).view.iterOut [1, 10] (some [some 1, none]) = .ok [] := by decide

example : Spec.OwnOrColon [.val 1, .colon, .val 10, .val 10] := ⟨rfl, trivial⟩

/-! ### C12 -/

/-- **C12, directed.** `net.edges` yields each link once, with its weight. -/
theorem C12_edges_directed (aspects : Nat) (noEdge : W) (aligned : Bool) (ops : List (Op α W)) :
    ∃ es, (after aspects noEdge true aligned ops).view.edges = .ok es ∧ es.Nodup ∧
      ∀ l w, (l, w) ∈ es ↔ ∃ a b, l = Spec.link a b ∧
        w = Spec.read aspects true noEdge ops a b ∧ w ≠ noEdge := by
  have hinv := after_inv aspects noEdge true aligned ops
  obtain ⟨ps, h1, h2, h3, h4, -⟩ := hinv.sound.edges
  have hne := after_noEdge aspects noEdge true aligned ops
  have hlen : ∀ p ∈ ps, p.1.length = aspects + 1 ∧ p.2.length = aspects + 1 := by
    intro p hp
    have := h3 p hp
    rw [← after_aspects aspects noEdge true aligned ops]
    exact ⟨hinv.sound.length_of_mem this.1, hinv.sound.length_of_mem this.2.1⟩
  refine ⟨_, h1, ?_, ?_⟩
  · refine h2.map_on ?_
    rintro ⟨a, b⟩ hp ⟨c, d⟩ hq e
    simp only [View.tuple, Prod.mk.injEq] at e
    obtain ⟨rfl, rfl⟩ := interleave_inj (by rw [(hlen _ hp).1, (hlen _ hp).2])
      (by rw [(hlen _ hq).1, (hlen _ hq).2]) e.1
    rfl
  · intro l w
    simp only [List.mem_map, View.tuple, Prod.mk.injEq, Prod.exists]
    constructor
    · rintro ⟨a, b, hp, rfl, rfl⟩
      refine ⟨a, b, interleave_eq_link a b, after_reads .., ?_⟩
      have := (h3 _ hp).2.2
      simpa [MNet.view, hne] using this
    · rintro ⟨a, b, rfl, rfl, hw⟩
      refine ⟨a, b, ?_, interleave_eq_link a b, after_reads ..⟩
      have hs := (after_exists aspects noEdge true aligned ops a b).1 hw
      obtain ⟨x, hx⟩ := Option.isSome_iff_exists.1 hs
      have hr := hinv.reg a b x hx
      refine h4 (after_directed ..) a ((MNet.reg_iff hinv.r a).1 hr.1) b ((MNet.reg_iff hinv.r b).1 hr.2) ?_
      rw [after_reads]; simpa [MNet.view, hne] using hw

/-- **C12, undirected.** Everything `net.edges` yields is an existing link with its weight, and every
existing link is yielded exactly once, in exactly one of its two orientations. -/
theorem C12_edges_undirected (aspects : Nat) (noEdge : W) (aligned : Bool) (ops : List (Op α W)) :
    ∃ es, (after aspects noEdge false aligned ops).view.edges = .ok es ∧
      (∀ l w, (l, w) ∈ es → ∃ a b, l = Spec.link a b ∧
        w = Spec.read aspects false noEdge ops a b ∧ w ≠ noEdge) ∧
      ∀ a b, Spec.read aspects false noEdge ops a b ≠ noEdge →
        es.countP (fun e => e.1 = Spec.link a b ∨ e.1 = Spec.link b a) = 1 := by
  have hinv := after_inv aspects noEdge false aligned ops
  obtain ⟨ps, h1, h2, h3, -, h5⟩ := hinv.sound.edges
  obtain ⟨h5, h6⟩ := h5 (after_directed ..)
  have hne := after_noEdge aspects noEdge false aligned ops
  have hlen : ∀ p ∈ ps, p.1.length = aspects + 1 ∧ p.2.length = aspects + 1 := by
    intro p hp
    have := h3 p hp
    rw [← after_aspects aspects noEdge false aligned ops]
    exact ⟨hinv.sound.length_of_mem this.1, hinv.sound.length_of_mem this.2.1⟩
  refine ⟨_, h1, ?_, ?_⟩
  · intro l w hm
    simp only [List.mem_map, View.tuple, Prod.mk.injEq, Prod.exists] at hm
    obtain ⟨a, b, hp, rfl, rfl⟩ := hm
    refine ⟨a, b, interleave_eq_link a b, after_reads .., ?_⟩
    have := (h3 _ hp).2.2
    simpa [MNet.view, hne] using this
  · intro a b hw
    have hl := read_length _ _ _ _ hw
    have hs := (after_exists aspects noEdge false aligned ops a b).1 hw
    obtain ⟨x, hx⟩ := Option.isSome_iff_exists.1 hs
    have hr := hinv.reg a b x hx
    have hmem := h5 a ((MNet.reg_iff hinv.r a).1 hr.1) b ((MNet.reg_iff hinv.r b).1 hr.2) (by
      rw [after_reads]; simpa [MNet.view, hne] using hw)
    rw [List.countP_map, List.countP_eq_length_filter]
    have hpred : ∀ p ∈ ps, (((fun e : List α × W => decide (e.1 = Spec.link a b ∨ e.1 = Spec.link b a)) ∘
        View.tuple (after aspects noEdge false aligned ops).reads) p = true ↔ p = (a, b) ∨ p = (b, a)) := by
      rintro ⟨c, d⟩ hp
      have hcd := hlen _ hp
      rw [Function.comp, decide_eq_true_iff, Prod.mk.injEq, Prod.mk.injEq, ← interleave_eq_link,
        ← interleave_eq_link]
      change interleave c d = _ ∨ interleave c d = _ ↔ _
      refine or_congr ?_ ?_
      · constructor
        · intro e; exact interleave_inj (by simp only at hcd; omega) (by omega) e
        · rintro ⟨rfl, rfl⟩; rfl
      · constructor
        · intro e; exact interleave_inj (by simp only at hcd; omega) (by omega) e
        · rintro ⟨rfl, rfl⟩; rfl
    rw [List.filter_congr (q := fun p => decide (p = (a, b) ∨ p = (b, a)))
      (fun p hp => by rw [Bool.eq_iff_iff, hpred p hp]; simp)]
    have one : ∀ q, q ∈ ps → (∀ p ∈ ps, (p = (a, b) ∨ p = (b, a)) → p = q) → (q = (a, b) ∨ q = (b, a)) →
        (ps.filter fun p => decide (p = (a, b) ∨ p = (b, a))).length = 1 := by
      intro q hq huniq hq'
      have hperm : (ps.filter fun p => decide (p = (a, b) ∨ p = (b, a))).Perm [q] := by
        rw [List.perm_ext_iff_of_nodup (h2.filter _) (by simp)]
        intro p
        simp only [List.mem_filter, decide_eq_true_eq, List.mem_singleton]
        constructor
        · rintro ⟨hp, h⟩; exact huniq p hp h
        · rintro rfl; exact ⟨hq, hq'⟩
      rw [hperm.length_eq]; rfl
    by_cases hab : a = b
    · subst hab
      have : (a, a) ∈ ps := by tauto
      exact one (a, a) this (fun p _ h => by tauto) (Or.inl rfl)
    · rcases hmem with h | h
      · refine one (a, b) h ?_ (Or.inl rfl)
        rintro p hp (rfl | rfl)
        · rfl
        · exact absurd hp (h6 a b hab h)
      · refine one (b, a) h ?_ (Or.inr rfl)
        rintro p hp (rfl | rfl)
        · exact absurd hp (h6 b a (fun e => hab e.symm) h)
        · rfl

example : (after 1 0 false true sampleOps).view.edges = .ok [([1, 2, 10, 10], 6), ([2, 2, 11, 11], 3)] := by
  decide

/-! ### C13 -/

/-- **C13.** `len(net.edges)` is the number of edges yielded. -/
theorem C13_len_edges (aspects : Nat) (noEdge : W) (directed aligned : Bool) (ops : List (Op α W)) :
    ∃ es, (after aspects noEdge directed aligned ops).view.edges = .ok es ∧
      (after aspects noEdge directed aligned ops).view.edgesLen = .ok (es.length : Int) :=
  (after_inv aspects noEdge directed aligned ops).sound.edgesLen

/-- **C13, directed.** `len(net.edges)` is the number of ordered pairs with a link. -/
theorem C13_len_directed (aspects : Nat) (noEdge : W) (aligned : Bool) (ops : List (Op α W)) :
    (after aspects noEdge true aligned ops).view.edgesLen =
      .ok ({p : List α × List α | Spec.read aspects true noEdge ops p.1 p.2 ≠ noEdge}.ncard : Int) := by
  obtain ⟨es, h1, h2⟩ := C13_len_edges aspects noEdge true aligned ops
  obtain ⟨ps, k1, k2, k3, k4, -⟩ := (after_inv aspects noEdge true aligned ops).sound.edges
  have hne := after_noEdge aspects noEdge true aligned ops
  rw [h1] at k1; cases k1
  rw [h2, MNet.ncard_of_list k2, List.length_map]
  rintro ⟨a, b⟩
  constructor
  · intro hp
    have := (k3 _ hp).2.2
    rw [after_reads] at this
    exact fun e => this (e.trans hne.symm)
  · intro hw
    have hinv := after_inv aspects noEdge true aligned ops
    obtain ⟨x, hx⟩ := Option.isSome_iff_exists.1 ((after_exists aspects noEdge true aligned ops a b).1 hw)
    have hr := hinv.reg a b x hx
    refine k4 (after_directed ..) a ((MNet.reg_iff hinv.r a).1 hr.1) b ((MNet.reg_iff hinv.r b).1 hr.2) ?_
    rw [after_reads]; exact fun e => hw (e.trans hne)

/-- **C13, undirected.** `len(net.edges)` is the number of unordered pairs with a link. -/
theorem C13_len_undirected (aspects : Nat) (noEdge : W) (aligned : Bool) (ops : List (Op α W)) :
    (after aspects noEdge false aligned ops).view.edgesLen =
      .ok ({z : Sym2 (List α) | ∃ a b, z = s(a, b) ∧
        Spec.read aspects false noEdge ops a b ≠ noEdge}.ncard : Int) := by
  obtain ⟨es, h1, h2⟩ := C13_len_edges aspects noEdge false aligned ops
  obtain ⟨ps, k1, k2, k3, -, k4⟩ := (after_inv aspects noEdge false aligned ops).sound.edges
  obtain ⟨k4, k5⟩ := k4 (after_directed ..)
  have hne := after_noEdge aspects noEdge false aligned ops
  rw [h1] at k1; cases k1
  rw [h2, MNet.ncard_of_list (l := ps.map fun p => s(p.1, p.2)), List.length_map, List.length_map]
  · refine k2.map_on ?_
    rintro ⟨a, b⟩ hp ⟨c, d⟩ hq e
    simp only [Sym2.eq_iff] at e
    rcases e with ⟨rfl, rfl⟩ | ⟨rfl, rfl⟩
    · rfl
    · by_cases hab : a = b
      · subst hab; rfl
      · exact absurd hq (k5 a b hab hp)
  · intro z
    simp only [List.mem_map, Prod.exists]
    constructor
    · rintro ⟨a, b, hp, rfl⟩
      have := (k3 _ hp).2.2
      rw [after_reads] at this
      exact ⟨a, b, rfl, fun e => this (e.trans hne.symm)⟩
    · rintro ⟨a, b, rfl, hw⟩
      have hinv := after_inv aspects noEdge false aligned ops
      obtain ⟨x, hx⟩ := Option.isSome_iff_exists.1 ((after_exists aspects noEdge false aligned ops a b).1 hw)
      have hr := hinv.reg a b x hx
      rcases k4 a ((MNet.reg_iff hinv.r a).1 hr.1) b ((MNet.reg_iff hinv.r b).1 hr.2)
        (by rw [after_reads]; exact fun e => hw (e.trans hne)) with h | h
      · exact ⟨a, b, h, rfl⟩
      · exact ⟨b, a, h, Sym2.eq_swap⟩

example : (after 1 0 false false sampleOps).view.edgesLen = .ok 2 := by decide

/-! ### C14 -/

/-- The two histories leave networks with the same observable content. -/
def Spec.SameContent (a₁ a₂ : Nat) (n₁ n₂ : W) (d₁ d₂ f : Bool) (ops₁ ops₂ : List (Op α W)) : Prop :=
  d₁ = d₂ ∧ a₁ = a₂ ∧ n₁ = n₂ ∧
  (∀ x, x ∈ (after a₁ n₁ d₁ f ops₁).iterNodes none ↔ x ∈ (after a₂ n₂ d₂ f ops₂).iterNodes none) ∧
  (∀ a l₁ l₂, (after a₁ n₁ d₁ f ops₁).getLayers a = .ok l₁ → (after a₂ n₂ d₂ f ops₂).getLayers a = .ok l₂ →
    ∀ x, x ∈ l₁ ↔ x ∈ l₂) ∧
  (∀ L n, n ∈ (after a₁ n₁ d₁ f ops₁).iterNodes (some L) ↔ n ∈ (after a₂ n₂ d₂ f ops₂).iterNodes (some L)) ∧
  (∀ u v, Spec.read a₁ d₁ n₁ ops₁ u v = Spec.read a₂ d₂ n₂ ops₂ u v)

/-- **C14, partial.** For two networks with the same alignment, `==` returns `True` exactly when they
have the same parameters, nodes, layers, nodes on each layer and link values, and `False` otherwise.
Missing: networks of different alignment (see `C14_false`). -/
theorem C14_eq_partial (a₁ a₂ : Nat) (n₁ n₂ : W) (d₁ d₂ f : Bool) (ops₁ ops₂ : List (Op α W))
    (hal : a₁ = 0 ∨ f = true ↔ a₂ = 0 ∨ f = true) :
    ∃ b, (after a₁ n₁ d₁ f ops₁).eq (after a₂ n₂ d₂ f ops₂) = .ok b ∧
      (b = true ↔ Spec.SameContent a₁ a₂ n₁ n₂ d₁ d₂ f ops₁ ops₂) := by
  have hm := after_inv a₁ n₁ d₁ f ops₁
  have ho := after_inv a₂ n₂ d₂ f ops₂
  obtain ⟨b, h1, h2⟩ := MNet.eq_spec hm ho (fun _ => MNet.run_ne (MNet.init_ne a₁ n₁ d₁ f) ops₁)
    (fun _ => MNet.run_ne (MNet.init_ne a₂ n₂ d₂ f) ops₂)
    (by
      rw [after_fic, after_fic, Bool.eq_iff_iff]; simpa using hal)
  refine ⟨b, h1, ?_⟩
  rw [h2]
  change (after a₁ n₁ d₁ f ops₁).directed = (after a₂ n₂ d₂ f ops₂).directed ∧
    (after a₁ n₁ d₁ f ops₁).aspects = (after a₂ n₂ d₂ f ops₂).aspects ∧
    (after a₁ n₁ d₁ f ops₁).noEdge = (after a₂ n₂ d₂ f ops₂).noEdge ∧
    (∀ i x, (after a₁ n₁ d₁ f ops₁).inSlice i x ↔ (after a₂ n₂ d₂ f ops₂).inSlice i x) ∧
    ((after a₁ n₁ d₁ f ops₁).fic = false → ∀ n L, (after a₁ n₁ d₁ f ops₁).onLayer n L ↔
      (after a₂ n₂ d₂ f ops₂).onLayer n L) ∧
    (∀ u v, (after a₁ n₁ d₁ f ops₁).lk u v = (after a₂ n₂ d₂ f ops₂).lk u v) ↔ _
  rw [after_directed, after_directed, after_aspects, after_aspects, after_noEdge, after_noEdge]
  unfold Spec.SameContent
  refine and_congr_right fun hd => and_congr_right fun ha => and_congr_right fun hn => ?_
  subst hd; subst ha; subst hn
  set m := after a₁ n₁ d₁ f ops₁ with hmdef
  set o := after a₁ n₁ d₁ f ops₂ with hodef
  have hfic : m.fic = o.fic := by rw [hmdef, hodef, after_fic, after_fic]
  have node : ∀ {m : MNet α W}, m.Inv → ∀ x, x ∈ m.iterNodes none ↔ m.inSlice 0 x := by
    intro m h x
    change x ∈ m.slices.headD [] ↔ _
    unfold MNet.inSlice
    rw [MNet.slices_split h.r]; simp
  have layer : ∀ {m : MNet α W} a l, m.getLayers a = .ok l → ∀ x, x ∈ l ↔ m.inSlice a x := by
    intro m a l hl x
    unfold MNet.getLayers at hl
    unfold MNet.inSlice
    cases hs : m.slices[a]? with
    | none => rw [hs] at hl; cases hl
    | some s => rw [hs] at hl; cases hl; simp
  have onl : ∀ {m : MNet α W}, m.Inv → m.fic = false → ∀ n L, n ∈ m.iterNodes (some L) ↔ m.onLayer n L := by
    intro m h hf n L
    rw [h.r.n2l]
    simp [MNet.iterNodes, hf]
  constructor
  · rintro ⟨h1, h2, h3⟩
    refine ⟨fun x => by rw [node hm, node ho, h1], ?_, ?_, ?_⟩
    · intro a l₁ l₂ hl1 hl2 x
      rw [layer a l₁ hl1, layer a l₂ hl2, h1]
    · intro L n
      cases hf : m.fic with
      | false => rw [onl hm hf, onl ho (by rw [← hfic, hf]), h2 hf]
      | true =>
        have hf' : o.fic = true := by rw [← hfic, hf]
        have e1 : m.iterNodes (some L) = m.iterNodes none := by simp [MNet.iterNodes, hf]
        have e2 : o.iterNodes (some L) = o.iterNodes none := by simp [MNet.iterNodes, hf']
        rw [e1, e2, node hm, node ho, h1]
    · intro u v
      rw [← after_reads a₁ n₁ d₁ f, ← after_reads a₁ n₁ d₁ f, ← hmdef, ← hodef]
      unfold MNet.reads
      rw [h3, hmdef, hodef, after_noEdge, after_noEdge]
  · rintro ⟨h1, h2, h3, h4⟩
    refine ⟨?_, ?_, ?_⟩
    · intro i x
      by_cases hi : i < a₁ + 1
      · have e1 : i < m.slices.length := by rw [hm.r.slen, hmdef, after_aspects]; exact hi
        have e2 : i < o.slices.length := by rw [ho.r.slen, hodef, after_aspects]; exact hi
        have g1 : m.getLayers i = .ok m.slices[i] := by unfold MNet.getLayers; simp [e1]
        have g2 : o.getLayers i = .ok o.slices[i] := by unfold MNet.getLayers; simp [e2]
        rw [← layer i _ g1, ← layer i _ g2]
        exact h2 i _ _ g1 g2 x
      · have no : ∀ {m : MNet α W}, m.Inv → m.aspects = a₁ → ¬ m.inSlice i x := by
          rintro m h ha ⟨s, hs, -⟩
          have := (List.getElem?_eq_some_iff.1 hs).1
          rw [h.r.slen, ha] at this; exact hi this
        exact iff_of_false (no hm (after_aspects ..)) (no ho (after_aspects ..))
    · intro hf n L
      rw [← onl hm hf, ← onl ho (by rw [← hfic, hf])]; exact h3 L n
    · intro u v
      have hr := h4 u v
      rw [← after_reads a₁ n₁ d₁ f, ← after_reads a₁ n₁ d₁ f, ← hmdef, ← hodef] at hr
      have n1 : m.noEdge = n₁ := after_noEdge ..
      have n2 : o.noEdge = n₁ := after_noEdge ..
      have r1 := MNet.reads_eq_noEdge hm.l u v
      have r2 := MNet.reads_eq_noEdge ho.l u v
      rw [n1] at r1; rw [n2] at r2
      cases hx : m.lk u v with
      | none => exact (r2.1 (by rw [← hr]; exact r1.2 hx)).symm
      | some w =>
        cases hy : o.lk u v with
        | none =>
          exfalso
          have := r1.1 (by rw [hr]; exact r2.2 hy)
          rw [hx] at this; cases this
        | some w' => simpa [MNet.reads, hx, hy] using hr

/-- **C14 is false of the code** for networks of different alignment: comparing a network that is not
node-aligned with one that is raises `AttributeError`, while the reverse comparison returns `False`. -/
theorem C14_false :
    (after (α := Nat) 1 (0 : Int) false false []).eq (after 1 0 false true []) = .error .attributeError ∧
    (after (α := Nat) 1 (0 : Int) false true []).eq (after 1 0 false false []) = .ok false := by decide

/-- The content relation is an equivalence relation, so `==` is one on networks of equal alignment. -/
theorem C14_equivalence (f : Bool) :
    (∀ (a : Nat) (n : W) d (ops : List (Op α W)), Spec.SameContent a a n n d d f ops ops) ∧
    (∀ (a b : Nat) (n k : W) d e (o₁ o₂ : List (Op α W)), Spec.SameContent a b n k d e f o₁ o₂ →
      Spec.SameContent b a k n e d f o₂ o₁) ∧
    (∀ (a b c : Nat) (n k l : W) d e g (o₁ o₂ o₃ : List (Op α W)), Spec.SameContent a b n k d e f o₁ o₂ →
      Spec.SameContent b c k l e g f o₂ o₃ → Spec.SameContent a c n l d g f o₁ o₃) := by
  refine ⟨?_, ?_, ?_⟩
  · intro a n d ops
    refine ⟨rfl, rfl, rfl, fun _ => Iff.rfl, ?_, fun _ _ => Iff.rfl, fun _ _ => rfl⟩
    intro i l₁ l₂ h1 h2 x; rw [h1] at h2; cases h2; rfl
  · rintro a b n k d e o₁ o₂ ⟨h1, h2, h3, h4, h5, h6, h7⟩
    exact ⟨h1.symm, h2.symm, h3.symm, fun x => (h4 x).symm, fun i l₁ l₂ g1 g2 x => (h5 i l₂ l₁ g2 g1 x).symm,
      fun L n => (h6 L n).symm, fun u v => (h7 u v).symm⟩
  · rintro a b c n k l d e g o₁ o₂ o₃ ⟨h1, h2, h3, h4, h5, h6, h7⟩ ⟨k1, k2, k3, k4, k5, k6, k7⟩
    subst h1; subst h2; subst h3; subst k1; subst k2; subst k3
    refine ⟨rfl, rfl, rfl, fun x => (h4 x).trans (k4 x), ?_, fun L n => (h6 L n).trans (k6 L n),
      fun u v => (h7 u v).trans (k7 u v)⟩
    intro i l₁ l₃ g1 g3 x
    have hlen : i < (after a n d f o₂).slices.length := by
      have h1 := (after_inv a n d f o₁).r.slen
      have h2 := (after_inv a n d f o₂).r.slen
      rw [after_aspects] at h1 h2
      unfold MNet.getLayers at g1
      cases hs : (after a n d f o₁).slices[i]? with
      | none => rw [hs] at g1; cases g1
      | some s => have := (List.getElem?_eq_some_iff.1 hs).1; omega
    have g2 : (after a n d f o₂).getLayers i = .ok (after a n d f o₂).slices[i] := by
      unfold MNet.getLayers; simp [hlen]
    exact (h5 i _ _ g1 g2 x).trans (k5 i _ _ g2 g3 x)

example : (after 1 (0 : Int) false false sampleOps).eq
    (after 1 0 false false (sampleOps ++ [.setItem [5, 6, 10] 0])) = .ok false := by decide
example : (after 1 (0 : Int) false true [.setItem [1, 2, 3] 4, .setItem [2, 1, 5] 6]).eq
    (after 1 0 false true [.setItem [1, 2, 5] 6, .setItem [2, 1, 3] 4]) = .ok true := by decide

/-! ### C15 -/

/-- **C15, aligned.** The node-layers are the full Cartesian product. -/
theorem C15_node_layers_aligned (aspects : Nat) (noEdge : W) (directed : Bool) (ops : List (Op α W)) :
    (after aspects noEdge directed true ops).nodeLayers.Nodup ∧
    ∀ nl, nl ∈ (after aspects noEdge directed true ops).nodeLayers ↔
      nl.length = aspects + 1 ∧ ∀ (i : Nat) x, nl[i]? = some x →
        ∃ l, (after aspects noEdge directed true ops).getLayers i = .ok l ∧ x ∈ l := by
  have hinv := after_inv aspects noEdge directed true ops
  refine ⟨MNet.nodeLayers_nodup hinv.r, fun nl => ?_⟩
  rw [MNet.mem_nodeLayers hinv.r, after_fic, Bool.or_true, if_pos rfl, ← MNet.reg_iff hinv.r]
  unfold MNet.Reg
  rw [after_aspects]
  refine and_congr_right fun _ => ?_
  have : ∀ i x, (after aspects noEdge directed true ops).inSlice i x ↔
      ∃ l, (after aspects noEdge directed true ops).getLayers i = .ok l ∧ x ∈ l := by
    intro i x
    unfold MNet.inSlice MNet.getLayers
    cases (after aspects noEdge directed true ops).slices[i]? <;> simp
  simp only [this]

/-- **C15, not aligned.** The node-layers are exactly those put there by some call, once each. -/
theorem C15_node_layers (aspects : Nat) (ha : 1 ≤ aspects) (noEdge : W) (directed : Bool)
    (ops : List (Op α W)) :
    (after aspects noEdge directed false ops).nodeLayers.Nodup ∧
    ∀ nl, nl ∈ (after aspects noEdge directed false ops).nodeLayers ↔
      ∃ op ∈ ops, Spec.NamesNodeLayer aspects nl op := by
  have hinv := after_inv aspects noEdge directed false ops
  refine ⟨MNet.nodeLayers_nodup hinv.r, fun nl => ?_⟩
  have hf : (after aspects noEdge directed false ops).fic = false := by
    rw [after_fic]; simp; omega
  rw [MNet.mem_nodeLayers hinv.r, hf, if_neg (by simp), after_aspects]
  constructor
  · rintro ⟨hl, n, t, rfl, ho⟩
    exact (MNet.run_onLayer aspects noEdge directed ha ops n t (by simpa using hl)).1 ho
  · rintro ⟨op, h1, h2⟩
    have hl : nl.length = aspects + 1 := by
      cases op with
      | addNode n l =>
        cases l with
        | none => exact h2.elim
        | some L => cases L with
          | el a => obtain ⟨h3, rfl⟩ := h2; simp [h3]
          | tup l => obtain ⟨h3, h4, rfl⟩ := h2; simp [h4]
      | addLayer l a => exact h2.elim
      | setItem i w =>
        obtain ⟨u, v, h3, rfl | rfl⟩ := h2
        · exact h3.1
        · exact h3.2.1
    match nl, hl with
    | n :: t, hl =>
      exact ⟨hl, n, t, rfl, (MNet.run_onLayer aspects noEdge directed ha ops n t (by simpa using hl)).2
        ⟨op, h1, h2⟩⟩

/-- **C15.** The nodes of a layer and the node-layers are views of the same relation. -/
theorem C15_layer_nodes (aspects : Nat) (ha : 1 ≤ aspects) (noEdge : W) (directed : Bool)
    (ops : List (Op α W)) (n : α) (s : List α) (hs : s.length = aspects) :
    n ∈ (after aspects noEdge directed false ops).iterNodes (some (.ofList s)) ↔
      n :: s ∈ (after aspects noEdge directed false ops).nodeLayers := by
  have hinv := after_inv aspects noEdge directed false ops
  have hf : (after aspects noEdge directed false ops).fic = false := by
    rw [after_fic]; simp; omega
  rw [MNet.mem_nodeLayers hinv.r, hf, if_neg (by simp), after_aspects]
  have : n ∈ (after aspects noEdge directed false ops).iterNodes (some (.ofList s)) ↔
      (after aspects noEdge directed false ops).onLayer n (.ofList s) := by
    rw [hinv.r.n2l]; simp [MNet.iterNodes, hf]
  rw [this]
  constructor
  · intro h; exact ⟨by simp [hs], n, s, rfl, h⟩
  · rintro ⟨-, n', t, e, h⟩; cases e; exact h

/-- **C15.** Both endpoints of an existing link are node-layers of the network. -/
theorem C15_edge_endpoints (aspects : Nat) (noEdge : W) (directed aligned : Bool) (ops : List (Op α W))
    {u v : List α} (h : Spec.read aspects directed noEdge ops u v ≠ noEdge) :
    u ∈ (after aspects noEdge directed aligned ops).nodeLayers ∧
    v ∈ (after aspects noEdge directed aligned ops).nodeLayers := by
  have hinv := after_inv aspects noEdge directed aligned ops
  obtain ⟨l, h1, -, -, h4⟩ := hinv.sound.nls
  cases h1
  have hs := (after_exists aspects noEdge directed aligned ops u v).1 h
  obtain ⟨x, hx⟩ := Option.isSome_iff_exists.1 hs
  have hr := hinv.reg u v x hx
  exact h4 u ((MNet.reg_iff hinv.r u).1 hr.1) v ((MNet.reg_iff hinv.r v).1 hr.2)
    ((MNet.reads_ne_noEdge hinv.l u v).2 hs)

example : (after 1 0 false false sampleOps).nodeLayers =
    [[1, 10], [2, 10], [3, 11], [2, 11]] := by decide

/-! ### C16 -/

/-- **C16.** `add_node` and `add_layer` change no link, degree or neighbour list. -/
theorem C16_frame (aspects : Nat) (noEdge : W) (directed aligned : Bool) (ops : List (Op α W))
    (op : Op α W) (hop : ∀ item w, op ≠ .setItem item w) :
    (∀ item, (after aspects noEdge directed aligned (ops ++ [op])).view.readItem item =
      (after aspects noEdge directed aligned ops).view.readItem item) ∧
    ∀ a dims,
      (after aspects noEdge directed aligned (ops ++ [op])).view.iterOut a dims =
        (after aspects noEdge directed aligned ops).view.iterOut a dims ∧
      (after aspects noEdge directed aligned (ops ++ [op])).view.iterIn a dims =
        (after aspects noEdge directed aligned ops).view.iterIn a dims ∧
      (after aspects noEdge directed aligned (ops ++ [op])).view.iterTotal a dims =
        (after aspects noEdge directed aligned ops).view.iterTotal a dims ∧
      (after aspects noEdge directed aligned (ops ++ [op])).view.degOut a dims =
        (after aspects noEdge directed aligned ops).view.degOut a dims ∧
      (after aspects noEdge directed aligned (ops ++ [op])).view.degIn a dims =
        (after aspects noEdge directed aligned ops).view.degIn a dims ∧
      (after aspects noEdge directed aligned (ops ++ [op])).view.deg a dims =
        (after aspects noEdge directed aligned ops).view.deg a dims := by
  rw [after_snoc]
  have hinv := after_inv aspects noEdge directed aligned ops
  set m := after aspects noEdge directed aligned ops
  have hg : MNet.RFrame m (m.step op).1 := by
    cases op with
    | addNode n l => exact (MNet.addNode_grows hinv.r n l).frame
    | addLayer l a => exact (MNet.addLayer_grows hinv.r l a).frame
    | setItem i w => exact absurd rfl (hop i w)
  obtain ⟨f1, f2, f3, f4, f5, f6, f7⟩ := hg.fields
  generalize (m.step op).1 = m' at f1 f2 f3 f4 f5 f6 f7 ⊢
  obtain ⟨_, _, _, _, _, _, _, _, _, _⟩ := m'
  simp only at f1 f2 f3 f4 f5 f6 f7
  subst f1 f2 f3 f4 f5 f6 f7
  exact ⟨fun _ => rfl, fun _ _ => ⟨rfl, rfl, rfl, rfl, rfl, rfl⟩⟩

/-- **C16.** The strength is also unchanged. -/
theorem C16_frame_strength [AddCommMonoid W] (aspects : Nat) (noEdge : W) (directed aligned : Bool)
    (ops : List (Op α W)) (op : Op α W) (hop : ∀ item w, op ≠ .setItem item w) (a : List α)
    (dims : Option (Dims α)) :
    (after aspects noEdge directed aligned (ops ++ [op])).str a dims =
      (after aspects noEdge directed aligned ops).str a dims := by
  rw [after_snoc]
  have hinv := after_inv aspects noEdge directed aligned ops
  have hinv' := MNet.step_inv hinv op
  set m := after aspects noEdge directed aligned ops
  have hg : MNet.RFrame m (m.step op).1 := by
    cases op with
    | addNode n l => exact (MNet.addNode_grows hinv.r n l).frame
    | addLayer l a => exact (MNet.addLayer_grows hinv.r l a).frame
    | setItem i w => exact absurd rfl (hop i w)
  obtain ⟨f1, f2, f3, f4, f5, f6, f7⟩ := hg.fields
  unfold MNet.str MNet.strTotalDir
  rw [MNet.strIn_spec hinv, MNet.strIn_spec hinv', MNet.strOut_spec hinv, MNet.strOut_spec hinv']
  simp only [MNet.iterOut, MNet.iterIn, MNet.iterInDir, MNet.reads, MNet.lk, f2, f3, f5, f6]

/-- **C16.** The number of edges is unchanged. -/
theorem C16_frame_edges (aspects : Nat) (noEdge : W) (directed aligned : Bool)
    (ops : List (Op α W)) (op : Op α W) (hop : ∀ item w, op ≠ .setItem item w) :
    (after aspects noEdge directed aligned (ops ++ [op])).view.edgesLen =
      (after aspects noEdge directed aligned ops).view.edgesLen := by
  have hr : ∀ u v, Spec.read aspects directed noEdge (ops ++ [op]) u v =
      Spec.read aspects directed noEdge ops u v := by
    intro u v
    simp only [Spec.read, List.foldl_append, List.foldl_cons, List.foldl_nil]
    cases op with
    | addNode n l => rfl
    | addLayer l a => rfl
    | setItem i w => exact absurd rfl (hop i w)
  cases directed with
  | true => rw [C13_len_directed, C13_len_directed]; simp only [hr]
  | false => rw [C13_len_undirected, C13_len_undirected]; simp only [hr]

/-- **C16.** Repeating the call changes nothing at all, even if it raised. -/
theorem C16_idempotent (aspects : Nat) (noEdge : W) (directed aligned : Bool) (ops : List (Op α W))
    (op : Op α W) (hop : ∀ item w, op ≠ .setItem item w) :
    after aspects noEdge directed aligned (ops ++ [op] ++ [op]) =
      after aspects noEdge directed aligned (ops ++ [op]) := by
  rw [after_snoc, after_snoc]
  cases op with
  | addNode n l => exact MNet.addNode_again (after_inv ..) n l
  | addLayer l a => exact MNet.addLayer_again (after_inv ..) l a
  | setItem i w => exact absurd rfl (hop i w)

example : ∀ item w, (Op.addNode 3 (some (.el 10)) : Op Nat Int) ≠ .setItem item w := by
  intro _ _ h; cases h

/-! ### C17 -/

/-- **C17.** `net[u][v]` reads the link from `u` to `v`. -/
theorem C17_node_read (aspects : Nat) (noEdge : W) (directed aligned : Bool) (ops : List (Op α W))
    {u v : List α} (hu : u.length = aspects + 1) (hv : v.length = aspects + 1) :
    (after aspects noEdge directed aligned ops).view.nodeGet u (v.map .val) =
      .ok (.weight (Spec.read aspects directed noEdge ops u v)) := by
  have hmap : ∀ u v : List α, interleave (u.map Idx.val) (v.map Idx.val) = (interleave u v).map .val := by
    intro u
    induction u with
    | nil => intro v; simp [interleave]
    | cons a u ih => intro v; cases v <;> simp [interleave, ih]
  unfold View.nodeGet nodesToLink
  simp only [List.length_map, hu, hv, if_true, hmap]
  exact C01_read_last_write aspects noEdge directed aligned ops
    (item := interleave u v) ⟨hu, hv, Or.inl (interleave_eq_link u v)⟩

/-- **C17.** `net[u][v]=w` is the same call as `net[link]=w` for the link from `u` to `v`; afterwards
that link reads `w`. -/
theorem C17_node_write (aspects : Nat) (noEdge : W) (directed aligned : Bool) (ops : List (Op α W))
    {u v : List α} (hu : u.length = aspects + 1) (hv : v.length = aspects + 1) (w : W) :
    (after aspects noEdge directed aligned ops).nodeSet u v w =
      (after aspects noEdge directed aligned ops).setItem (Spec.link u v) w ∧
    ((after aspects noEdge directed aligned ops).nodeSet u v w).1.view.nodeGet u (v.map .val) =
      .ok (.weight w) := by
  have h1 : (after aspects noEdge directed aligned ops).nodeSet u v w =
      (after aspects noEdge directed aligned ops).setItem (Spec.link u v) w := by
    unfold MNet.nodeSet nodesToLink
    simp only [hu, hv, if_true, interleave_eq_link]
  refine ⟨h1, ?_⟩
  rw [h1]
  have h2 := after_snoc aspects noEdge directed aligned ops (.setItem (Spec.link u v) w)
  change _ = ((after aspects noEdge directed aligned ops).setItem (Spec.link u v) w).1 at h2
  rw [← h2, C17_node_read aspects noEdge directed aligned _ hu hv]
  simp only [Spec.read, List.foldl_append, List.foldl_cons, List.foldl_nil, Spec.written]
  rw [if_pos (Or.inl ⟨hu, hv, Or.inl rfl⟩)]; rfl

example : (after 2 (0 : Int) true false [.setItem [1, 2, 5, 6, 7, 8] 3]).view.nodeGet [1, 5, 7]
    ([2, 6, 8].map .val) = .ok (.weight 3) := by decide

end Pymnet
