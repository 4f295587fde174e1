import Verif.Proofs.Overlaps

/-! Properties C71 and C72: preferential attachment and overlapping random networks. -/

set_option linter.unusedSectionVars false

namespace Pymnet

open Py Models

variable {α W : Type} [DecidableEq α] [DecidableEq W] [Zero W] [One W]

theorem BaInv.attaches {ix : Nat → α} (hix : Function.Injective ix) {c : Coupling α W} {ms : List Nat} {n : Nat}
    {net : MPlex α W} {links : List Nat} {T : Nat → Nat → List Nat} (h : BaInv ix c ms n net links T) :
    ∃ R, BuiltP net c true (fun x => ∃ k < n, x = ix k) (fun s => ∃ l m, ms[l]? = some m ∧ 1 ≤ m ∧ m < n ∧ s = ix l)
        (fun _ _ => False) R ∧
      ∀ l m, ms[l]? = some m → Spec.Attaches ix n m (R (ix l)) (T l) := by
  have hlt : ∀ {l k j}, j ∈ T l k → k < n ∧ ∃ m, ms[l]? = some m := by
    intro l k j hj
    constructor
    · by_contra hk; rw [h.off l k (.inl (by omega))] at hj; cases hj
    · have : l < ms.length := by
        by_contra hl; rw [h.off l k (.inr (by omega))] at hj; cases hj
      exact ⟨_, List.getElem?_eq_getElem this⟩
  refine ⟨_, BuiltP.congr h.net (fun _ => Iff.rfl) (fun s => ?_) (fun _ _ => Iff.rfl) (fun _ _ _ => rfl), fun l m hm => ?_⟩
  · constructor
    · rintro ⟨l, k, j, hj, rfl⟩
      obtain ⟨hk, m, hm⟩ := hlt hj
      obtain ⟨-, -, g3⟩ := h.good l m hm k hk
      have := List.length_pos_of_mem hj
      split at g3
      · exact ⟨l, m, hm, by omega, by omega, rfl⟩
      · omega
    · rintro ⟨l, m, hm, h1, h2, rfl⟩
      obtain ⟨-, -, g3⟩ := h.good l m hm m h2
      rw [if_pos le_rfl] at g3
      obtain ⟨j, hj⟩ := List.exists_mem_of_ne_nil (T l m) (by intro e; rw [e] at g3; simp at g3; omega)
      exact ⟨l, m, j, hj, rfl⟩
  · have good := h.good l m hm
    refine ⟨fun i hi => (good i hi).1, fun i hi => (good i hi).2.1, fun i hi => (good i hi).2.2, fun i hi j hj => ⟨?_, ?_⟩,
      fun a b hab => ?_⟩
    · exact if_pos ⟨l, i, j, hj, rfl, .inl ⟨rfl, rfl⟩⟩
    · exact if_pos ⟨l, i, j, hj, rfl, .inr ⟨rfl, rfl⟩⟩
    · refine if_neg ?_
      rintro ⟨l', k, j, hj, e, he⟩
      obtain rfl := hix e
      obtain ⟨h1, h2⟩ := hab k (hlt hj).1 j hj
      exact he.elim h1 h2

/-- **C71.** Whatever is sampled, the returned network has all `n` nodes, and on the layer with parameter `m` every node
after the first `m` is linked to exactly `m` distinct earlier nodes. Layers that get no link are absent. -/
theorem C71_ba_total_degree [IntNames α] {ix : Nat → α} (hix : Function.Injective ix) (n : Nat) (ms : List Nat)
    (coupling : Coupling α W) (draws : List (List Nat)) {p : MPlex α W}
    (h : baTotalDegree ix n ms coupling draws = .ok p) :
    ∃ R, Spec.LooksPlex p coupling true (fun x => ∃ i < n, x = ix i)
        (fun s => ∃ l m, ms[l]? = some m ∧ 1 ≤ m ∧ m < n ∧ s = ix l) (fun x _ => ∃ i < n, x = ix i) R ∧
      ∀ l m, ms[l]? = some m → ∃ T, Spec.Attaches ix n m (R (ix l)) T := by
  unfold baTotalDegree at h
  split at h
  · cases h
  · rename_i st hst
    cases h
    obtain ⟨T, hT⟩ := (ba_ends hix n ms coupling draws).ok hst
    obtain ⟨R, h1, h2⟩ := hT.attaches hix
    exact ⟨R, by simpa only [if_true] using h1.looks, fun l m hm => ⟨T l, h2 l m hm⟩⟩

/-- **C71.** The generator never raises: there are always enough link ends to sample from. -/
theorem C71_never_raises {ix : Nat → α} (hix : Function.Injective ix) (n : Nat) (ms : List Nat)
    (coupling : Coupling α W) (draws : List (List Nat)) (e : Err) :
    baTotalDegree ix n ms coupling draws ≠ .error (.raised e) := by
  intro h
  unfold baTotalDegree at h
  split at h
  · rename_i e' he
    cases h
    exact (ba_ends hix n ms coupling draws).err he
  · cases h

theorem attaches_degree [NeZero (1 : W)] {ix : Nat → α} (hix : Function.Injective ix) {n m : Nat} {R : α → α → W}
    {T : Nat → List Nat} (h : Spec.Attaches ix n m R T) (hoff : ∀ k, n ≤ k → T k = []) (j : Nat) :
    ∑ k ∈ Finset.range n, (T k).count j + (T j).length =
      ((List.range n).filter fun b => R (ix j) (ix b) ≠ 0).length := by
  classical
  have h1 : ∀ k, k < n → (T k).count j = if j ∈ T k then 1 else 0 := fun k hk => by
    by_cases hj : j ∈ T k
    · rw [if_pos hj]; exact List.count_eq_one_of_mem (h.nodup k hk) hj
    · rw [if_neg hj]; exact List.count_eq_zero.2 hj
  have h2 : (T j).length = ∑ k ∈ Finset.range n, if k ∈ T j then 1 else 0 := by
    by_cases hj : j < n
    · rw [← List.toFinset_card_of_nodup (h.nodup j hj), Finset.sum_boole, Nat.cast_id]
      congr 1
      ext k
      simp only [List.mem_toFinset, Finset.mem_filter, Finset.mem_range]
      exact ⟨fun hk => ⟨by have := h.earlier j hj k hk; omega, hk⟩, fun hk => hk.2⟩
    · rw [hoff j (by omega)]; simp
  rw [h2, ← Finset.sum_add_distrib]
  have h3 : ((List.range n).filter fun b => R (ix j) (ix b) ≠ 0).length =
      ∑ k ∈ Finset.range n, if R (ix j) (ix k) ≠ 0 then 1 else 0 := by
    rw [Finset.sum_boole, Nat.cast_id, ← List.toFinset_card_of_nodup (List.nodup_range.filter _)]
    congr 1
    ext k
    simp
  rw [h3]
  refine Finset.sum_congr rfl fun k hk => ?_
  have hk' := Finset.mem_range.1 hk
  rw [h1 k hk']
  by_cases a : j ∈ T k
  · have hlt := h.earlier k hk' j a
    have : k ∉ T j := fun b => by
      have := h.earlier j (by omega) k b; omega
    rw [if_pos a, if_neg this, (h.linked k hk' j a).2, if_pos one_ne_zero]
  · by_cases b : k ∈ T j
    · have hj : j < n := by
        by_contra hc; rw [hoff j (by omega)] at b; cases b
      rw [if_neg a, if_pos b, (h.linked j hj k b).1, if_pos one_ne_zero]
    · rw [if_neg a, if_neg b, h.unlinked, if_neg (by simp)]
      intro i hi t ht
      refine ⟨?_, ?_⟩
      · rintro ⟨e1, e2⟩
        obtain rfl := hix e1; obtain rfl := hix e2
        exact b ht
      · rintro ⟨e1, e2⟩
        obtain rfl := hix e1; obtain rfl := hix e2
        exact a ht

/-- **C71.** The attachment is preferential by total degree: whenever nodes are sampled for node `i`, they are sampled from a
list that holds each earlier node as many times as its number of links on all layers together. -/
theorem C71_preferential [IntNames α] [NeZero (1 : W)] {ix : Nat → α} (hix : Function.Injective ix) (i : Nat) (ms : List Nat)
    (coupling : Coupling α W) (draws rest : List (List Nat)) {p : MPlex α W} {links : List Nat}
    (h : forS (baNode ix ms) (List.range i) ((MPlex.init [coupling] false 0 true, []), draws) =
      .ok ((p, links), rest)) :
    ∃ R, Spec.LooksPlex p coupling true (fun x => ∃ k < i, x = ix k)
        (fun s => ∃ l m, ms[l]? = some m ∧ 1 ≤ m ∧ m < i ∧ s = ix l) (fun x _ => ∃ k < i, x = ix k) R ∧
      ∀ j, links.count j =
        ∑ l ∈ Finset.range ms.length, ((List.range i).filter fun b => R (ix l) (ix j) (ix b) ≠ 0).length := by
  obtain ⟨T, hT⟩ := (ba_ends hix i ms coupling draws).ok h
  obtain ⟨R, h1, h2⟩ := hT.attaches hix
  refine ⟨R, by simpa only [if_true] using h1.looks, fun j => ?_⟩
  rw [hT.count]
  refine Finset.sum_congr rfl fun l hl => ?_
  exact attaches_degree hix (h2 l _ (List.getElem?_eq_getElem (Finset.mem_range.1 hl))) (fun k hk => hT.off l k (.inl hk)) j

/-- four nodes, one link per node on layer 0 and two on layer 1 -/
example : ∃ p : MPlex Int Int, baTotalDegree (fun i : Nat => (i : Int)) 4 [1, 2] (.categorical 1)
    [[0], [1], [0, 3]] = .ok p := by
  have : ∀ x : Except Stop (MPlex Int Int), (match x with | .ok _ => true | .error _ => false) = true → ∃ p, x = .ok p := by
    intro x hx
    match x with
    | .ok p => exact ⟨p, rfl⟩
    | .error _ => cases hx
  exact this _ (by decide +kernel)

/-! ### C72: `er_overlaps_match_aggregated` -/

open Classical in
theorem simple_of_pairs {ix : Nat → α} (hix : Function.Injective ix) {n : Nat} {B : List ((Nat × Nat) × List α)}
    (hn : (B.map Prod.fst).Nodup) (hlt : ∀ e ∈ B, e.1.1 < e.1.2 ∧ e.1.2 < n) {R : α → α → W}
    (hR : ∀ a b, R a b = if ∃ e ∈ B, (a = ix e.1.1 ∧ b = ix e.1.2) ∨ (a = ix e.1.2 ∧ b = ix e.1.1) then 1 else 0) :
    ∃ L, Spec.SimpleLinks (fun x => ∃ i < n, x = ix i) R L ∧ L.length = B.length := by
  have hmem : ∀ a b, (a, b) ∈ B.map (fun e => (ix e.1.1, ix e.1.2)) ↔ ∃ e ∈ B, a = ix e.1.1 ∧ b = ix e.1.2 := by
    intro a b
    simp only [List.mem_map, Prod.mk.injEq]
    constructor
    · rintro ⟨e, he, rfl, rfl⟩; exact ⟨e, he, rfl, rfl⟩
    · rintro ⟨e, he, rfl, rfl⟩; exact ⟨e, he, rfl, rfl⟩
  refine ⟨B.map (fun e => (ix e.1.1, ix e.1.2)), ⟨?_, ?_, ?_, ?_⟩, by simp⟩
  · have : B.map (fun e => (ix e.1.1, ix e.1.2)) = (B.map Prod.fst).map (fun q => (ix q.1, ix q.2)) := by
      rw [List.map_map]; rfl
    rw [this]
    refine hn.map ?_
    rintro ⟨a, b⟩ ⟨a', b'⟩ h
    simp only [Prod.mk.injEq] at h
    rw [hix h.1, hix h.2]
  · intro a b h1 h2
    obtain ⟨e, he, rfl, rfl⟩ := (hmem _ _).1 h1
    obtain ⟨e', he', h3, h4⟩ := (hmem _ _).1 h2
    have := hix h3; have := hix h4
    have := hlt e he; have := hlt e' he'
    omega
  · intro a b h
    obtain ⟨e, he, rfl, rfl⟩ := (hmem _ _).1 h
    obtain ⟨h1, h2⟩ := hlt e he
    exact ⟨⟨_, by omega, rfl⟩, ⟨_, h2, rfl⟩, fun h => by have := hix h; omega⟩
  · intro a b
    rw [hR]
    refine ite_iff ?_
    rw [hmem, hmem]
    simp only [← exists_or, ← and_or_left]
    refine exists_congr fun e => and_congr_right fun _ => or_congr Iff.rfl and_comm

open Classical in
/-- **C72.** Let `LS` be the layers, let the combinations have distinct layers and not take more than `edges` from any
layer. Whatever is drawn, all links of the returned network have weight 1 and connect distinct nodes of `0..n-1`; the
aggregated network has exactly `edges` times the number of layers links; and each layer has the links left over by its
combinations, plus for each of its combinations the number `int(round(p*edges))` *times the size of the combination*. -/
theorem C72_overlaps [IntNames α] [NeZero (1 : W)] {ix : Nat → α} (hix : Function.Injective ix) (n : Nat) (edges : Int)
    (ps : List (List α × Int)) (coupling : Coupling α W) (draws : List Nat) (hd : ∀ c ∈ ps, c.1.Nodup)
    (hm : ∀ c ∈ ps, 0 ≤ c.2) {LS : List α} (hLS : LS.Nodup) (hmem : ∀ s, s ∈ LS ↔ ∃ c ∈ ps, s ∈ c.1)
    (hr : ∀ s ∈ LS, 0 ≤ Spec.remaining edges ps s) {p : MPlex α W}
    (h : erOverlaps ix n edges ps coupling draws = .ok p) :
    ∃ R : α → α → α → W, Spec.LooksPlex p coupling true (fun x => ∃ s ∈ LS, ∃ b, R s x b = 1)
        (fun s => s ∈ LS ∧ ∃ a b, R s a b = 1) (fun x _ => ∃ s ∈ LS, ∃ b, R s x b = 1) R ∧
      (∃ L, Spec.SimpleLinks (fun x => ∃ i < n, x = ix i) (fun a b => if ∃ s ∈ LS, R s a b = 1 then (1 : W) else 0) L ∧
        (L.length : Int) = edges * LS.length) ∧
      ∀ s ∈ LS, ∃ L, Spec.SimpleLinks (fun x => ∃ i < n, x = ix i) (R s) L ∧
        (L.length : Int) = Spec.remaining edges ps s +
          ((Spec.combinations ps s).map fun c => (c.1.length : Int) * c.2).sum := by
  obtain ⟨used, A, h1, h2⟩ := (erOverlaps_ends hix n edges ps coupling draws).ok h
  have hA : ∀ e ∈ A, e.2 ≠ [] ∧ ∀ s ∈ e.2, s ∈ LS := by
    intro e he
    have : e.2 ∈ A.map Prod.snd := List.mem_map.2 ⟨e, he, rfl⟩
    rw [h2, List.mem_append] at this
    rcases this with h | h
    · obtain ⟨c, hc, h⟩ := List.mem_flatMap.1 h
      split at h
      · rename_i hl
        rw [(List.mem_replicate.1 h).2]
        exact ⟨fun h => by rw [h] at hl; simp at hl, fun s hs => (hmem s).2 ⟨c, hc, hs⟩⟩
      · cases h
    · obtain ⟨l, hl, h⟩ := List.mem_flatMap.1 h
      rw [(List.mem_replicate.1 h).2]
      refine ⟨by simp, fun s hs => ?_⟩
      rw [List.mem_singleton] at hs
      subst hs
      obtain ⟨k1, k2⟩ := leftDict_spec edges ps hd
      have := Dict.get_of_mem k1 (show (l.1, l.2) ∈ leftDict edges ps [] from hl)
      rw [k2] at this
      split at this
      · rename_i hc; exact (hmem _).2 hc
      · cases this
  have hone : ∀ {P : Prop} {i : Decidable P}, (@ite W P i 1 0 = 1) ↔ P := by
    intro P i
    by_cases hP : P
    · simp [hP]
    · rw [if_neg hP]; exact ⟨fun h => absurd h.symm one_ne_zero, fun h => absurd h hP⟩
  have h3 : ∃ R : α → α → α → W, (∀ s a b, R s a b = if ∃ e ∈ A, s ∈ e.2 ∧ ((a = ix e.1.1 ∧ b = ix e.1.2) ∨
      (a = ix e.1.2 ∧ b = ix e.1.1)) then 1 else 0) ∧
      BuiltP p coupling true (fun x => ∃ e ∈ A, e.2 ≠ [] ∧ (x = ix e.1.1 ∨ x = ix e.1.2)) (fun s => ∃ e ∈ A, s ∈ e.2)
        (fun _ _ => False) R := ⟨_, fun s a b => ite_iff Iff.rfl, h1.net⟩
  obtain ⟨R, hR, h4⟩ := h3
  have hR1 : ∀ s a b, R s a b = 1 ↔ ∃ e ∈ A, s ∈ e.2 ∧ ((a = ix e.1.1 ∧ b = ix e.1.2) ∨
      (a = ix e.1.2 ∧ b = ix e.1.1)) := fun s a b => by rw [hR]; exact hone
  refine ⟨R, ?_, ?_, ?_⟩
  · have h5 := (BuiltP.congr h4 (S' := fun x => ∃ s ∈ LS, ∃ b, R s x b = 1)
      (LY' := fun s => s ∈ LS ∧ ∃ a b, R s a b = 1) ?_ ?_ (fun _ _ => Iff.rfl) (fun _ _ _ => rfl)).looks
    · simpa only [if_true] using h5
    · intro x
      simp only [hR1]
      constructor
      · rintro ⟨e, he, hne, h⟩
        obtain ⟨s, hs⟩ := List.exists_mem_of_ne_nil _ hne
        refine ⟨s, (hA e he).2 s hs, ?_⟩
        rcases h with rfl | rfl
        · exact ⟨_, e, he, hs, .inl ⟨rfl, rfl⟩⟩
        · exact ⟨_, e, he, hs, .inr ⟨rfl, rfl⟩⟩
      · rintro ⟨s, -, b, e, he, hs, h⟩
        exact ⟨e, he, List.ne_nil_of_mem hs, h.imp And.left And.left⟩
    · intro s
      simp only [hR1]
      constructor
      · rintro ⟨e, he, hs⟩
        exact ⟨(hA e he).2 s hs, _, _, e, he, hs, .inl ⟨rfl, rfl⟩⟩
      · rintro ⟨-, a, b, e, he, hs, -⟩; exact ⟨e, he, hs⟩
  · obtain ⟨L, l1, l2⟩ := simple_of_pairs hix h1.nodup h1.lt
      (R := fun a b => if ∃ s ∈ LS, R s a b = 1 then (1 : W) else 0) (by
        intro a b
        refine ite_iff ?_
        simp only [hR1]
        constructor
        · rintro ⟨s, hs, e, he, -, h⟩; exact ⟨e, he, h⟩
        · rintro ⟨e, he, h⟩
          obtain ⟨hne, hsub⟩ := hA e he
          obtain ⟨s, hs⟩ := List.exists_mem_of_ne_nil _ hne
          exact ⟨s, hsub s hs, e, he, hs, h⟩)
    exact ⟨L, l1, by rw [l2]; exact ov_total hLS hd hm hmem hr h2⟩
  · intro s hs
    obtain ⟨L, l1, l2⟩ := simple_of_pairs hix (R := R s) (B := A.filter fun e => s ∈ e.2)
      (List.Nodup.sublist (List.filter_sublist.map _) h1.nodup)
      (fun e he => h1.lt e (List.mem_of_mem_filter he)) (by
        intro a b
        rw [hR]
        refine ite_iff ?_
        simp only [List.mem_filter, decide_eq_true_eq, and_assoc])
    exact ⟨L, l1, by rw [l2]; exact ov_layer hd hm ((hmem s).1 hs) (hr s hs) h2⟩

/-- **C72.** The only exception is `IndexError`, for fewer than two nodes. -/
theorem C72_raises {ix : Nat → α} (hix : Function.Injective ix) (n : Nat) (edges : Int) (ps : List (List α × Int))
    (coupling : Coupling α W) (draws : List Nat) {e : Err}
    (h : erOverlaps ix n edges ps coupling draws = .error (.raised e)) : e = .indexError ∧ n < 2 :=
  (erOverlaps_ends hix n edges ps coupling draws).err h

/-- **C72.** It returns if the draws start with enough different pairs: `edges` times the number of layers. -/
theorem C72_returns {ix : Nat → α} (hix : Function.Injective ix) (n : Nat) (edges : Int)
    (ps : List (List α × Int)) (coupling : Coupling α W) {draws : List Nat} (hd : ∀ c ∈ ps, c.1.Nodup)
    (hm : ∀ c ∈ ps, 0 ≤ c.2) {LS : List α} (hLS : LS.Nodup) (hmem : ∀ s, s ∈ LS ↔ ∃ c ∈ ps, s ∈ c.1)
    (hr : ∀ s ∈ LS, 0 ≤ Spec.remaining edges ps s) (hn : draws.Nodup) (hv : ∀ e ∈ draws, e < n * (n - 1) / 2)
    (hlen : edges * LS.length ≤ draws.length) : ∃ p, erOverlaps ix n edges ps coupling draws = .ok p := by
  refine erOverlaps_returns hix n edges ps coupling hn hv ?_
  have := ov_total hLS hd hm hmem hr (A := (combPlan ps ++ (leftDict edges ps []).flatMap fun l =>
    List.replicate l.2.toNat [l.1]).map fun x => ((0, 0), x)) (by rw [List.map_map]; simp [Function.comp_def])
  rw [List.length_map] at this
  omega

/-- **C72 is false of the documented number of edges of each layer** ("Number of edges in each layer"): with the single
combination `(s,t)` and the proportion `m/edges`, both layers have `edges + m` links instead of `edges`. -/
theorem C72_false_layer_edges [IntNames α] [NeZero (1 : W)] {ix : Nat → α} (hix : Function.Injective ix) (n : Nat)
    {edges m : Int} (h1 : 1 ≤ m) (hme : m ≤ edges) {s t : α} (hst : s ≠ t) (coupling : Coupling α W) (draws : List Nat)
    {p : MPlex α W} (h : erOverlaps ix n edges [([s, t], m)] coupling draws = .ok p) :
    ∃ c L R, p.child? (.el s) = some c ∧ (∀ i j, c.view.readItem [i, j] = .ok (.weight (R i j))) ∧
      Spec.SimpleLinks (W := W) (fun x => ∃ i < n, x = ix i) R L ∧ (L.length : Int) = edges + m := by
  have hrem : ∀ x ∈ [s, t], Spec.remaining edges [([s, t], m)] x = edges - m := by
    intro x hx
    simp only [List.mem_cons, List.not_mem_nil, or_false] at hx
    rcases hx with rfl | rfl <;> simp [Spec.remaining, Spec.combinations]
  obtain ⟨R, h2, -, h3⟩ := C72_overlaps hix n edges [([s, t], m)] coupling draws (by simp [hst]) (by simp; omega)
    (LS := [s, t]) (by simp [hst]) (by simp) (fun x hx => by rw [hrem x hx]; omega) h
  obtain ⟨L, l1, l2⟩ := h3 s (by simp)
  have hlen : (L.length : Int) = edges + m := by
    rw [l2, hrem s (by simp)]
    simp [Spec.combinations]; omega
  have hpos : L ≠ [] := by
    rintro rfl
    simp at hlen; omega
  obtain ⟨⟨a, b⟩, hab⟩ := List.exists_mem_of_ne_nil _ hpos
  obtain ⟨c, c1, c2⟩ := h2.intra s ⟨by simp, a, b, by rw [l1.weights]; exact if_pos (.inl hab)⟩
  exact ⟨c, L, R s, c1, c2, l1, hlen⟩

/-- three nodes, one edge per layer, one combination of both layers that takes it all -/
example : ∃ p : MPlex Int Int, erOverlaps (fun i : Nat => (i : Int)) 3 1 [([10, 20], 1)] (.categorical 1) [2, 0] = .ok p :=
  C72_returns Nat.cast_injective 3 1 _ _ (by decide) (by decide) (LS := [10, 20]) (by decide) (by simp) (by decide)
    (by decide) (by decide) (by decide)

end Pymnet
