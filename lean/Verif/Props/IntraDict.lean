import Verif.Model.IntraDict
import Verif.Props.Assign
import Verif.Props.Transforms

/-! C163, C164: the mapping `net.A` of a multiplex network. -/

set_option linter.unusedSectionVars false

namespace Pymnet

open Py MPlex

variable {α W : Type} [DecidableEq α] [DecidableEq W] [Zero W]

/-! ### The keys are different -/

/-- Internal: no key twice. -/
def MPlex.KN (p : MPlex α W) : Prop := (Dict.keys p.A).Nodup

theorem MPlex.KN.andThen {r : Outcome (MPlex α W)} {f : MPlex α W → Outcome (MPlex α W)} (h : r.1.KN) (hf : ∀ p : MPlex α W, p.KN → (f p).1.KN) :
    (r.andThen f).1.KN := by
  obtain ⟨s, _ | e⟩ := r
  · exact hf s h
  · exact h

theorem MPlex.KN.putChild {p : MPlex α W} (h : p.KN) (L : LKey α) (c : MNet α W) : (p.putChild L c).KN := Dict.nodup_keys_set h _ _

theorem MPlex.KN.addEmpty {p : MPlex α W} (h : p.KN) (L : LKey α) : (p.addEmpty L).KN := Dict.nodup_keys_set h _ _

theorem MPlex.KN.sliceAdd {p : MPlex α W} (h : p.KN) (a : Nat) (x : α) : (p.sliceAdd a x).1.KN := by
  unfold MPlex.sliceAdd; split
  · exact h
  · exact h

theorem MPlex.KN.addElem {p : MPlex α W} (h : p.KN) (x : α) (a : Nat) : (p.addElem x a).1.KN := by
  unfold MPlex.addElem
  split
  · exact h
  · split
    · exact h
    · refine KN.sliceAdd ?_ _ _
      generalize product _ = l
      clear * - h
      induction l generalizing p with
      | nil => exact h
      | cons s t ih => exact ih (h.addEmpty _)

theorem MPlex.KN.regLayer {p : MPlex α W} (h : p.KN) (x : α) (L : LKey α) : (p.regLayer x L).KN := h

theorem MPlex.KN.addElems {p : MPlex α W} (h : p.KN) (l : List α) (a : Nat) : (p.addElems l a).1.KN := by
  induction l generalizing p a with
  | nil => exact h
  | cons x t ih =>
    unfold MPlex.addElems
    split
    · exact h
    · split
      · exact ih h _
      · exact KN.andThen (h.addElem _ _) fun q hq => ih hq _

theorem MPlex.KN.regNode {p : MPlex α W} (h : p.KN) (x : α) (L : Option (LKey α)) : (p.regNode x L).1.KN := by
  unfold MPlex.regNode
  refine KN.andThen (h.sliceAdd _ _) fun q hq => ?_
  split
  · exact hq
  · split
    · exact hq
    · split <;> split
      · exact KN.andThen (hq.addElems _ _) fun r hr => hr.regLayer _ _
      · exact hq
      · exact KN.andThen (hq.addElems _ _) fun r hr => hr.regLayer _ _
      · exact hq

theorem MPlex.KN.childAddNode {p : MPlex α W} (h : p.KN) (L : LKey α) (x : α) : (p.childAddNode L x).1.KN := by
  unfold MPlex.childAddNode
  split
  · exact h
  · dsimp only
    split
    · exact (h.putChild _ _).sliceAdd _ _
    · exact KN.andThen ((h.putChild _ _).regNode _ _) fun r hr => hr.regLayer _ _

theorem MPlex.KN.addNode {p : MPlex α W} (h : p.KN) (x : α) (L : Option (LKey α)) : (p.addNode x L).1.KN := by
  unfold MPlex.addNode
  refine KN.andThen (h.regNode _ _) fun q hq => ?_
  split
  · exact hq
  · split
    · exact hq
    · unfold ensureChild
      split
      · exact hq
      · split
        · exact hq
        · exact hq.childAddNode _ _

theorem MPlex.KN.addLayer {p : MPlex α W} (h : p.KN) (x : α) (a : Nat) : (p.addLayer x a).1.KN := by
  unfold MPlex.addLayer
  split
  · split
    · exact h
    · split
      · exact h
      · exact h.addNode _ _
  · exact h.addElem _ _

theorem MPlex.KN.childSetItem {p : MPlex α W} (h : p.KN) (L : LKey α) (i j : α) (v : W) : (p.childSetItem L i j v).1.KN := by
  unfold MPlex.childSetItem
  refine KN.andThen (KN.andThen (h.childAddNode _ _) fun q hq => hq.childAddNode _ _) fun q hq => ?_
  unfold childSetLink
  split
  · exact hq
  · exact hq.putChild _ _

theorem MPlex.KN.addLinkLayers {p : MPlex α W} (h : p.KN) : ∀ (l : List α) (a : Nat), (p.addLinkLayers l a).1.KN
  | [], _ => h
  | [_], _ => h
  | x :: y :: t, a => by
    unfold MPlex.addLinkLayers
    exact KN.andThen (KN.andThen (h.addLayer _ _) fun q hq => hq.addLayer _ _) fun q hq => KN.addLinkLayers hq t _

theorem MPlex.KN.setItem {p : MPlex α W} (h : p.KN) (i : List α) (v : W) : (p.setItem i v).1.KN := by
  unfold MPlex.setItem
  dsimp only
  split
  · generalize (if i.length = 2 * (p.aspects + 1) then i else shortLinkToLink i) = link
    refine KN.andThen (KN.andThen ?_ fun q hq => hq.addLinkLayers _ _) fun q hq => ?_
    · unfold addLinkNodes
      split
      · split
        · exact KN.andThen (h.addLayer _ _) fun q hq => hq.addLayer _ _
        · exact KN.andThen (h.addNode _ _) fun q hq => hq.addNode _ _
      · exact h
    · unfold MPlex.setLink
      split
      · split
        · exact hq.childSetItem _ _ _ _
        · exact hq
      · exact hq
  · exact h

theorem after_KN (cs : List (Coupling α W)) (dir : Bool) (z : W) (al : Bool) (ops : List (POp α W)) : (afterP cs dir z al ops).KN := by
  have key : ∀ (ops : List (POp α W)) (p : MPlex α W), p.KN → (p.run ops).KN := by
    intro ops
    induction ops with
    | nil => intro p h; exact h
    | cons o t ih =>
      intro p h
      refine ih _ ?_
      cases o with
      | addNode n l => exact h.addNode _ _
      | addLayer l a => exact h.addLayer _ _
      | setItem i v => exact h.setItem _ _
      | intraAddNode L n => exact h.childAddNode _ _
      | intraSet L i j v => exact h.childSetItem _ _ _ _
  exact key ops _ List.nodup_nil

/-! ### C163 -/

/-- **C163.** For every multiplex network made by calls: iterating over `net.A` gives every layer exactly once, `len(net.A)` is the product
of the numbers of elementary layers of the aspects, and `net.A[L]` raises `KeyError` exactly if there is no layer `L`. -/
theorem C163_keys {cs : List (Coupling α W)} (hcs : cs ≠ []) (dir : Bool) (z : W) (al : Bool) (ops : List (POp α W)) :
    (afterP cs dir z al ops).keysA.Nodup ∧
    (∀ L, L ∈ (afterP cs dir z al ops).keysA ↔ Spec.HasLayer cs.length al ops L) ∧
    (afterP cs dir z al ops).lenA = (((afterP cs dir z al ops).slices.drop 1).map List.length).prod ∧
    ∀ L, (afterP cs dir z al ops).getA L = .error .keyError ↔ ¬ Spec.HasLayer cs.length al ops L := by
  have hp := after_pinv hcs dir z al ops
  have hk := after_KN cs dir z al ops
  obtain ⟨-, -, s2, -⟩ := after_spec hcs dir z al ops
  have hmem : ∀ L, L ∈ (afterP cs dir z al ops).keysA ↔ ((afterP cs dir z al ops).child? L).isSome = true := by
    intro L
    unfold keysA child?
    rw [Dict.mem_keys]; simp
  refine ⟨hk, fun L => (hmem L).trans (s2 L), ?_, fun L => ?_⟩
  · generalize afterP cs dir z al ops = p at *
    have hn : ((product (p.slices.drop 1)).map LKey.ofList).Nodup := by
      refine List.Nodup.map (fun a b h => ofList_inj' h) (nodup_product fun s hs => hp.core.snodup s (List.mem_of_mem_drop hs))
    have hperm : p.keysA.Perm ((product (p.slices.drop 1)).map LKey.ofList) := by
      refine (List.perm_ext_iff_of_nodup hk hn).2 fun L => ?_
      change L ∈ p.keysA ↔ _
      rw [hmem, hp.core.akeys, List.mem_map]
      have hdrop : (p.slices.drop 1).length = p.aspects := by rw [List.length_drop, hp.core.slen]; omega
      constructor
      · rintro ⟨s, rfl, hs, hx⟩
        refine ⟨s, ?_, rfl⟩
        rw [mem_product, MNet.forall₂_iff_getElem, hdrop]
        refine ⟨hs, fun i x y h1 h2 => ?_⟩
        obtain ⟨t, ht, hxt⟩ := hx i x h1
        rw [List.getElem?_drop, Nat.add_comm, ht] at h2
        cases h2; exact hxt
      · rintro ⟨s, hs, rfl⟩
        rw [mem_product, MNet.forall₂_iff_getElem, hdrop] at hs
        refine ⟨s, rfl, hs.1, fun i x hx => ?_⟩
        have hi := (List.getElem?_eq_some_iff.1 hx).1
        have hi' : i + 1 < p.slices.length := by rw [hp.core.slen]; omega
        refine ⟨p.slices[i + 1], by simp [hi'], hs.2 i x _ hx ?_⟩
        rw [List.getElem?_drop, Nat.add_comm]; simp [hi']
    have := hperm.length_eq
    rw [List.length_map, length_product] at this
    rw [← this]
    unfold lenA keysA Dict.keys
    simp
  · rw [← s2 L]
    unfold getA
    cases (afterP cs dir z al ops).child? L <;> simp

/-! ### C164 -/

/-- **C164, what is true.** For every multiplex network made by calls: `pop` returns the intra-layer network of a layer, the default for
other keys, and raises `KeyError` without one; `setdefault` returns the intra-layer network of a layer, and for other keys raises an exception;
both leave the network as it was. Missing: that the layer is removed (`C164_false_del`, `C164_false_clear`). -/
theorem C164_pop_partial {cs : List (Coupling α W)} (hcs : cs ≠ []) (dir : Bool) (z : W) (al : Bool) (ops : List (POp α W)) (L : LKey α)
    (default : MNet α W) :
    (∀ c, (afterP cs dir z al ops).getA L = .ok c →
      (∀ o, (afterP cs dir z al ops).popA L o = .ok (c, afterP cs dir z al ops)) ∧
      (afterP cs dir z al ops).setDefaultA L default = (.ok c, afterP cs dir z al ops)) ∧
    (¬ Spec.HasLayer cs.length al ops L → (afterP cs dir z al ops).popA L none = .error .keyError ∧
      (afterP cs dir z al ops).popA L (some default) = .ok (default, afterP cs dir z al ops) ∧
      ∃ e, (afterP cs dir z al ops).setDefaultA L default = (.error e, afterP cs dir z al ops)) := by
  refine ⟨fun c hc => ⟨fun o => ?_, ?_⟩, fun h => ?_⟩
  · unfold popA; rw [hc]; rfl
  · unfold setDefaultA; rw [hc]
  · have hg := ((C163_keys hcs dir z al ops).2.2.2 L).2 h
    obtain ⟨e, he⟩ := C113_errors hcs dir z al ops L default (Or.inr h)
    refine ⟨?_, ?_, e, ?_⟩
    · unfold popA; rw [hg]
    · unfold popA; rw [hg]
    · unfold setDefaultA; rw [hg]; simp only [he]

/-- **C164, update.** For every node-aligned multiplex network made by calls and every dictionary from layers of it to monoplex networks made
by calls: after `net.A.update(d)` the links of the layers in `d` are those of their networks, the links of the other layers and the
elementary layers are as before, and the nodes of the networks in `d` have been added. Missing: networks that are not node-aligned
(`C113_false`). -/
theorem C164_update_partial {cs : List (Coupling α W)} (hcs : cs ≠ []) (dir : Bool) (z : W) (d : List (List α × List (Op α W)))
    (hd : (d.map Prod.fst).Nodup) (ops : List (POp α W)) (hl : ∀ e ∈ d, Spec.HasLayer cs.length true ops (.ofList e.1)) :
    ∃ ops', (afterP cs dir z true ops).updateA (d.map fun e => (.ofList e.1, after 0 0 dir true e.2)) = (afterP cs dir z true ops', none) ∧
      (∀ x, Spec.Happened (Spec.NamesNodeP cs.length true x) ops' ↔
        Spec.Happened (Spec.NamesNodeP cs.length true x) ops ∨ ∃ e ∈ d, Spec.HasName 0 true e.2 0 x) ∧
      (∀ L, Spec.HasLayer cs.length true ops' L ↔ Spec.HasLayer cs.length true ops L) ∧
      (∀ e ∈ d, ∀ i j, Spec.readP cs.length dir true ops' e.1 i j = Spec.read 0 dir 0 e.2 [i] [j]) ∧
      ∀ t i j, t.length = cs.length → t ∉ d.map Prod.fst → Spec.readP cs.length dir true ops' t i j = Spec.readP cs.length dir true ops t i j := by
  induction d generalizing ops with
  | nil => exact ⟨ops, rfl, fun x => by simp, fun L => Iff.rfl, by simp, fun _ _ _ _ _ => rfl⟩
  | cons e t ih =>
    obtain ⟨s, o⟩ := e
    simp only [List.map_cons, List.nodup_cons] at hd
    have hs := hl (s, o) List.mem_cons_self
    obtain ⟨ops1, e1, r1⟩ := C113_assign_partial hcs dir z ops hs (network_looks 0 0 dir true o)
    have lay : ∀ L, Spec.HasLayer cs.length true ops1 L ↔ Spec.HasLayer cs.length true ops L := by
      intro L
      unfold Spec.HasLayer
      refine exists_congr fun t => and_congr_right fun _ => and_congr_right fun hlen => ?_
      refine forall_congr' fun k => forall_congr' fun x => imp_congr_right fun hx => ?_
      have := (List.getElem?_eq_some_iff.1 hx).1
      exact r1.layers (k + 1) x (by omega) (by omega)
    obtain ⟨ops', e2, n2, l2, k2, o2⟩ := ih hd.2 ops1 fun e he => (lay _).2 (hl e (List.mem_cons_of_mem _ he))
    have hlen : ∀ e ∈ (s, o) :: t, e.1.length = cs.length := by
      intro e he
      obtain ⟨q, g1, g2, -⟩ := hl e he
      cases ofList_inj' g1
      exact g2
    refine ⟨ops', ?_, fun x => ?_, fun L => (l2 L).trans (lay L), ?_, ?_⟩
    · rw [List.map_cons]
      unfold updateA
      rw [e1]
      exact e2
    · rw [n2 x, r1.nodes x]
      simp only [List.mem_cons, exists_eq_or_imp, or_assoc]
    · intro e he i j
      rcases List.mem_cons.1 he with rfl | he'
      · rw [o2 s i j (hlen _ he) hd.1, r1.link s i j (hlen _ he), if_pos rfl]
      · exact k2 e he' i j
    · intro q i j hq hn
      simp only [List.map_cons, List.mem_cons, not_or] at hn
      rw [o2 q i j hq hn.2, r1.link q i j hq, if_neg hn.1]

/-- **C164 is false, deletion**: for every network, `del net.A[L]` changes nothing and does not raise, so that a layer is still there after
it. -/
theorem C164_false_del {cs : List (Coupling α W)} (hcs : cs ≠ []) (dir : Bool) (z : W) (al : Bool) (ops : List (POp α W)) {L : LKey α}
    (h : Spec.HasLayer cs.length al ops L) : ∃ q, (afterP cs dir z al ops).delA L = (q, none) ∧ L ∈ q.keysA ∧
      q = afterP cs dir z al ops := ⟨_, rfl, ((C163_keys hcs dir z al ops).2.1 L).2 h, rfl⟩

/-- **C164 is false, clearing**: for every network with a layer, `net.A.clear()` never ends, and `net.A.popitem()` always returns the first
layer; without layers both end at once. -/
theorem C164_false_clear {cs : List (Coupling α W)} (hcs : cs ≠ []) (dir : Bool) (z : W) (al : Bool) (ops : List (POp α W)) :
    ((∃ L, Spec.HasLayer cs.length al ops L) → ∀ n, (afterP cs dir z al ops).clearA n = none) ∧
    ((¬ ∃ L, Spec.HasLayer cs.length al ops L) → ∀ n, (afterP cs dir z al ops).clearA (n + 1) = some (afterP cs dir z al ops, none)) := by
  obtain ⟨-, hm, -, hg⟩ := C163_keys hcs dir z al ops
  refine ⟨fun ⟨L, hL⟩ n => ?_, fun h n => ?_⟩
  · obtain ⟨K, t, hK⟩ : ∃ K t, (afterP cs dir z al ops).keysA = K :: t := by
      cases e : (afterP cs dir z al ops).keysA with
      | nil => have := (hm L).2 hL; rw [e] at this; simp at this
      | cons K t => exact ⟨K, t, rfl⟩
    have hp : ∃ c, (afterP cs dir z al ops).popItemA = .ok ((K, c), afterP cs dir z al ops) := by
      cases e : (afterP cs dir z al ops).getA K with
      | error x =>
        have hKm : K ∈ (afterP cs dir z al ops).keysA := by rw [hK]; exact List.mem_cons_self
        have : (afterP cs dir z al ops).getA K = .error .keyError := by
          unfold getA at e ⊢
          split <;> simp_all
        exact absurd ((hm K).1 hKm) ((hg K).1 this)
      | ok c => exact ⟨c, by unfold popItemA; rw [hK]; simp only [e]; rfl⟩
    obtain ⟨c, hp⟩ := hp
    induction n with
    | zero => rfl
    | succ n ih => unfold clearA; rw [hp]; exact ih
  · have hK : (afterP cs dir z al ops).keysA = [] := by
      cases e : (afterP cs dir z al ops).keysA with
      | nil => rfl
      | cons K t => exact absurd ⟨K, (hm K).1 (by rw [e]; exact List.mem_cons_self)⟩ h
    unfold clearA popItemA
    rw [hK]

/-- the layers of a network with two aspects that is not node-aligned -/
example : let p := afterP [.categorical 1, .ordinal 1] false 0 false ([.addNode 1 (some (.tup [10, 20])), .addLayer 11 1, .addLayer 21 2] : List (POp Nat Int))
    p.keysA = [.tup [10, 20], .tup [11, 20], .tup [10, 21], .tup [11, 21]] ∧ p.lenA = 4 := by decide +kernel

/-- the layer 10 is still there after it has been deleted and popped, and clearing does not end -/
example : let p := afterP [.categorical 1] false 0 true assignOps
    Spec.HasLayer 1 true assignOps (.el 10) ∧ (∃ q, p.delA (.el 10) = (q, none) ∧ .el 10 ∈ q.keysA) ∧
    (∃ c, p.popA (.el 10) none = .ok (c, p)) ∧ p.popA (.el 30) none = .error .keyError ∧ ∀ n, p.clearA n = none := by
  have h : Spec.HasLayer 1 true assignOps (.el 10) :=
    ⟨[10], rfl, rfl, fun k x hx => by
      match k, hx with
      | 0, rfl => exact ⟨.setItem [1, 2, 10] 1, by simp [assignOps], _, rfl, [1, 10], [2, 10],
          ⟨rfl, rfl, .inr ⟨1, 2, [10], rfl, rfl, rfl⟩⟩, .inl rfl⟩⟩
  refine ⟨h, ?_, ⟨_, rfl⟩, rfl, (C164_false_clear (by simp) false 0 true assignOps).1 ⟨_, h⟩⟩
  obtain ⟨q, h1, h2, -⟩ := C164_false_del (cs := [.categorical 1]) (by simp) false 0 true assignOps h
  exact ⟨q, h1, h2⟩

/-- two layers replaced at once -/
example : ((afterP [.categorical 1] false 0 true assignOps).updateA [(.el 10, after 0 0 false true [.setItem [3, 4] 7]),
      (.el 20, (after 0 0 false true [.setItem [1, 4] 8] : MNet Int Int))]).1.view.edges =
    .ok [([1, 1, 10, 20], 1), ([1, 4, 20, 20], 8), ([2, 2, 10, 20], 1), ([3, 4, 10, 10], 7), ([3, 3, 10, 20], 1), ([4, 4, 10, 20], 1)] := by
  decide +kernel

end Pymnet
