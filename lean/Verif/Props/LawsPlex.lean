import Verif.Props.PlexRelabel
import Verif.Props.Plex3
import Verif.Props.Laws

/-! C156 and C157 for multiplex networks. -/

set_option linter.unusedSectionVars false

namespace Pymnet

open Py MPlex

variable {α W : Type} [DecidableEq α] [DecidableEq W] [Zero W] [IntNames α] {cs : List (Coupling α W)} {dir al : Bool} {z : W}
  {ops : List (POp α W)}

/-! ### Internal lemmas -/

theorem namesLayerP_le {d a : Nat} {x : α} {op : POp α W} (h1 : 1 ≤ a) (h : Spec.NamesLayerP d al a x op) : a ≤ d := by
  obtain ⟨o, -, h⟩ := h
  unfold Spec.NamesLayer at h
  split at h
  · exact absurd h id
  · omega
  · omega
  · omega
  · obtain ⟨u, v, ⟨hu, hv, -⟩, h | h⟩ := h
    · have := (List.getElem?_eq_some_iff.1 h).1; omega
    · have := (List.getElem?_eq_some_iff.1 h).1; omega

theorem hasNodeLayer_names {d : Nat} {u : List α} (h : Spec.HasNodeLayer d al ops u) :
    ∃ n s, u = n :: s ∧ s.length = d ∧ Spec.Happened (Spec.NamesNodeP d al n) ops ∧
      ∀ (k : Nat) x, s[k]? = some x → ∃ op ∈ ops, Spec.NamesLayerP d al (k + 1) x op := by
  obtain ⟨n, s, rfl, hs, ⟨rfl, h1, t, h2, h3, h4⟩ | ⟨rfl, pre, op, post, rfl, h⟩⟩ := h
  · cases ofList_inj' h2
    exact ⟨n, s, rfl, hs, h1, h4⟩
  · refine ⟨n, s, rfl, hs, ⟨pre, op, post, rfl, ?_⟩, ?_⟩
    · cases op with
      | intraAddNode L m => exact ⟨h.1, h.2.2⟩
      | intraSet L i j w => exact ⟨h.1, h.2.2⟩
      | _ =>
        obtain ⟨o, ho, h⟩ := h
        refine ⟨o, ho, ?_⟩
        unfold Spec.NamesNodeLayer at h
        split at h
        · exact (List.cons.inj h.2).1.symm
        · exact (List.cons.inj h.2.2).1.symm
        · obtain ⟨u, v, ha, rfl | rfl⟩ := h
          · exact ⟨_, v, ha, Or.inl rfl⟩
          · exact ⟨u, _, ha, Or.inr rfl⟩
        · exact absurd h id
    · intro k x hk
      have old : ∀ L, Spec.HasLayer d false pre L → L = .ofList s →
          ∃ op' ∈ pre ++ op :: post, Spec.NamesLayerP d false (k + 1) x op' := by
        rintro L ⟨t, e, -, ht⟩ rfl
        cases ofList_inj' e
        obtain ⟨op', h1, h2⟩ := ht k x hk
        exact ⟨op', by simp [h1], h2⟩
      cases op with
      | intraAddNode L m => exact old L h.1 h.2.1
      | intraSet L i j w => exact old L h.1 h.2.1
      | _ =>
        obtain ⟨o, ho, h⟩ := h
        refine ⟨_, by simp, o, ho, ?_⟩
        unfold Spec.NamesNodeLayer at h
        split at h
        · obtain ⟨rfl, e⟩ := h
          obtain ⟨rfl, rfl⟩ := List.cons.inj e
          rcases k with _ | k
          · exact ⟨rfl, rfl, rfl, by simpa using hk⟩
          · simp at hk
        · obtain ⟨h1, h2, e⟩ := h
          obtain ⟨rfl, rfl⟩ := List.cons.inj e
          have := (List.getElem?_eq_some_iff.1 hk).1
          exact ⟨rfl, h1, by omega, by simpa using hk⟩
        · obtain ⟨u, v, ha, rfl | rfl⟩ := h
          · exact ⟨_, v, ha, Or.inl (by simpa using hk)⟩
          · exact ⟨u, _, ha, Or.inr (by simpa using hk)⟩
        · exact absurd h id

theorem chosen_iff {d k : Nat} {sel : List (Option (List α))} (hl : sel.length = d + 1) (hk : k ≤ d) (x : α) :
    Spec.Chosen sel k x ↔ Spec.Admits sel k x := by
  unfold Spec.Chosen Spec.Admits
  have e : sel[k]? = some sel[k] := List.getElem?_eq_getElem (by omega)
  constructor
  · rintro ⟨o, h1, h2⟩ l h3
    rw [h1] at h3
    exact h2 l (Option.some.inj h3)
  · intro h; exact ⟨_, e, fun l hl => h l (by rw [e, hl])⟩

theorem Spec.SameContentP.symm {d : Nat} {ops₁ ops₂ : List (POp α W)} (same : Spec.SameContentP d dir al ops₁ ops₂) :
    Spec.SameContentP d dir al ops₂ ops₁ :=
  ⟨fun n => (same.nodes n).symm, fun a x ha => (same.layers a x ha).symm, fun u => (same.nodeLayers u).symm,
    fun s i j hsl => (same.links s i j (by
      obtain ⟨t, e, ht, hn⟩ := hsl
      exact ⟨t, e, ht, fun k x hx => (same.layers _ x (by omega)).2 (hn k x hx)⟩)).symm⟩

/-- Every elementary layer that is listed (and not only selected by `none`) is one of the network made by `ops` and meets `P`. -/
def Spec.ListsLayers (d : Nat) (al : Bool) (ops : List (POp α W)) (P : Nat → α → Prop) (sel : List (Option (List α))) : Prop :=
  ∀ a l x, 1 ≤ a → sel[a]? = some (some l) → x ∈ l → (∃ op ∈ ops, Spec.NamesLayerP d al a x op) ∧ P a x

theorem asked_hasLayer {d : Nat} {P : Nat → α → Prop} {sel : List (Option (List α))} (h : Spec.ListsLayers d al ops P sel) {s : List α}
    (hs : Spec.Asked d al ops sel s) : Spec.HasLayer d al ops (.ofList s) := by
  refine ⟨s, rfl, hs.1, fun k x hx => ?_⟩
  rcases hs.2 k x hx with ⟨l, h1, h2⟩ | ⟨-, h1⟩
  · exact (h (k + 1) l x (by omega) h1 h2).1
  · exact h1

/-! ### C156 -/

/-- **C156, multiplex networks.** For every multiplex network whose couplings are not networks: the sub-network of a sub-network is `==` to
the sub-network of what is selected both times, if the layers that are listed exist (otherwise `subnet` raises `KeyError`). -/
theorem C156_multiplex (hcs : cs ≠ []) (hnet : ∀ c, .net c ∉ cs) {sel1 sel2 sel12 : List (Option (List α))}
    (h1 : sel1.length = cs.length + 1) (h2 : sel2.length = cs.length + 1) (h12 : sel12.length = cs.length + 1)
    (hs : ∀ k ≤ cs.length, ∀ x, Spec.Admits sel12 k x ↔ Spec.Admits sel1 k x ∧ Spec.Admits sel2 k x) (n1 n2 : Bool)
    (hx1 : n1 = true ∨ Spec.ListsLayers cs.length al ops (fun _ _ => True) sel1)
    (hx2 : n2 = true ∨ Spec.ListsLayers cs.length al ops (Spec.Admits sel1) sel2)
    (hx12 : (n1 || n2) = true ∨ Spec.ListsLayers cs.length al ops (fun _ _ => True) sel12) :
    ∃ p1 p2 p12, (afterP cs dir z al ops).subnet sel1 n1 = .ok p1 ∧ p1.subnet sel2 n2 = .ok p2 ∧
      (afterP cs dir z al ops).subnet sel12 (n1 || n2) = .ok p12 ∧ p2.eq p12 = .ok true ∧ p12.eq p2 = .ok true := by
  classical
  obtain ⟨ops1, e1, l1⟩ := C84_subnet (dir := dir) (z := z) hcs hnet h1 n1 (hx1.imp id fun h _ hs => asked_hasLayer h hs)
  obtain ⟨ops12, e12, l12⟩ := C84_subnet (dir := dir) (z := z) hcs hnet h12 (n1 || n2) (hx12.imp id fun h _ hs => asked_hasLayer h hs)
  obtain ⟨ops2, e2, l2⟩ := C84_subnet (dir := dir) (z := z) (al := al) (ops := ops1) hcs hnet h2 n2 (hx2.imp id fun h _ hs' => by
    refine asked_hasLayer (P := fun _ _ => True) (fun a l x ha hl hx => ⟨?_, trivial⟩) hs'
    obtain ⟨q1, q2⟩ := h a l x ha hl hx
    obtain ⟨op, hop, hn⟩ := q1
    have hle := namesLayerP_le ha hn
    exact (l1.layers a x ha hle).2 ⟨⟨op, hop, hn⟩, (chosen_iff h1 hle x).2 q2⟩)
  have ch : ∀ k ≤ cs.length, ∀ x, Spec.Chosen sel12 k x ↔ Spec.Chosen sel1 k x ∧ Spec.Chosen sel2 k x := fun k hk x => by
    rw [chosen_iff h12 hk, chosen_iff h1 hk, chosen_iff h2 hk, hs k hk]
  have chNL : ∀ u, u.length = cs.length + 1 → (Spec.ChosenNL sel12 u ↔ Spec.ChosenNL sel1 u ∧ Spec.ChosenNL sel2 u) := fun u hu => by
    have hk : ∀ a x, u[a]? = some x → a ≤ cs.length := fun a x h => by have := (List.getElem?_eq_some_iff.1 h).1; omega
    constructor
    · intro h
      exact ⟨fun a x hx => ((ch a (hk a x hx) x).1 (h a x hx)).1, fun a x hx => ((ch a (hk a x hx) x).1 (h a x hx)).2⟩
    · rintro ⟨g1, g2⟩ a x hx; exact (ch a (hk a x hx) x).2 ⟨g1 a x hx, g2 a x hx⟩
  have chL : ∀ s, s.length = cs.length → (Spec.ChosenLayer sel12 s ↔ Spec.ChosenLayer sel1 s ∧ Spec.ChosenLayer sel2 s) := fun u hu => by
    have hk : ∀ a x, u[a]? = some x → a + 1 ≤ cs.length := fun a x h => by have := (List.getElem?_eq_some_iff.1 h).1; omega
    constructor
    · intro h
      exact ⟨fun a x hx => ((ch _ (hk a x hx) x).1 (h a x hx)).1, fun a x hx => ((ch _ (hk a x hx) x).1 (h a x hx)).2⟩
    · rintro ⟨g1, g2⟩ a x hx; exact (ch _ (hk a x hx) x).2 ⟨g1 a x hx, g2 a x hx⟩
  have hlenNL : ∀ {ops : List (POp α W)} {u}, Spec.HasNodeLayer cs.length al ops u → u.length = cs.length + 1 := by
    rintro ops u ⟨n, s, rfl, h, -⟩; simp [h]
  have same : Spec.SameContentP cs.length dir al ops2 ops12 := by
    refine ⟨fun n => ?_, fun a x ha => ?_, fun u => ?_, fun s i j hsl => ?_⟩
    · rw [l2.nodes, l12.nodes]
      cases al with
      | true => simp only [if_true]; rw [l1.nodes, if_pos rfl, ch 0 (by omega)]; tauto
      | false =>
        simp only [Bool.false_eq_true, if_false]
        refine exists_congr fun s => ?_
        rw [l1.nodeLayers]
        constructor
        · rintro ⟨⟨g1, g2⟩, g3⟩; exact ⟨g1, (chNL _ (hlenNL g1)).2 ⟨g2, g3⟩⟩
        · rintro ⟨g1, g2⟩; exact ⟨⟨g1, ((chNL _ (hlenNL g1)).1 g2).1⟩, ((chNL _ (hlenNL g1)).1 g2).2⟩
    · by_cases hle : a ≤ cs.length
      · rw [l2.layers a x ha hle, l12.layers a x ha hle, l1.layers a x ha hle, ch a hle]; tauto
      · exact ⟨fun ⟨op, _, h⟩ => absurd (namesLayerP_le ha h) hle, fun ⟨op, _, h⟩ => absurd (namesLayerP_le ha h) hle⟩
    · rw [l2.nodeLayers, l12.nodeLayers, l1.nodeLayers]
      constructor
      · rintro ⟨⟨g1, g2⟩, g3⟩; exact ⟨g1, (chNL _ (hlenNL g1)).2 ⟨g2, g3⟩⟩
      · rintro ⟨g1, g2⟩; exact ⟨⟨g1, ((chNL _ (hlenNL g1)).1 g2).1⟩, ((chNL _ (hlenNL g1)).1 g2).2⟩
    · obtain ⟨t, e, ht, -⟩ := hsl
      cases ofList_inj' e
      rw [l2.link s i j ht, l12.link s i j ht, l1.link s i j ht, chL s ht, ch 0 (by omega), ch 0 (by omega)]
      by_cases a1 : Spec.ChosenLayer sel1 s <;> by_cases a2 : Spec.ChosenLayer sel2 s <;> by_cases b1 : Spec.Chosen sel1 0 i <;>
        by_cases b2 : Spec.Chosen sel2 0 i <;> by_cases c1 : Spec.Chosen sel1 0 j <;> by_cases c2 : Spec.Chosen sel2 0 j <;>
        cases n1 <;> cases n2 <;> simp [a1, a2, b1, b2, c1, c2]
  have hnn : ∀ c ∈ cs, Spec.NotNet c := fun c hc m e => hnet m (e ▸ hc)
  obtain ⟨b, q1, q2⟩ := C51_eq hcs hcs hnn hnn dir dir z z al al ops2 ops12
  obtain ⟨b', q1', q2'⟩ := C51_eq hcs hcs hnn hnn dir dir z z al al ops12 ops2
  obtain rfl := q2.2 ⟨rfl, rfl, rfl, rfl, same⟩
  obtain rfl := q2'.2 ⟨rfl, rfl, rfl, rfl, same.symm⟩
  exact ⟨_, _, _, e1, e2, e12, q1, q1'⟩

/-! ### C157 -/

theorem renamedLayer_renamedLayer {f g h : Nat → α → α} {s : List α} (hh : ∀ k x, s[k]? = some x → h (k + 1) x = g (k + 1) (f (k + 1) x)) :
    Spec.renamedLayer g (Spec.renamedLayer f s) = Spec.renamedLayer h s := by
  unfold Spec.renamedLayer
  apply List.ext_getElem?
  intro k
  rw [List.getElem?_mapIdx, List.getElem?_mapIdx, List.getElem?_mapIdx]
  rcases e : s[k]? with _ | x
  · rfl
  · simp [hh k x e]

/-- Name `x` of a node (`k = 0`) or of an elementary layer of aspect `k` in the network made by `ops`. -/
def Spec.CarriesName (d : Nat) (al : Bool) (ops : List (POp α W)) (k : Nat) (x : α) : Prop :=
  if k = 0 then Spec.Happened (Spec.NamesNodeP d al x) ops else ∃ op ∈ ops, Spec.NamesLayerP d al k x op

/-- **C157, multiplex networks.** For every multiplex network whose couplings are not networks, and without self-links written through an
intra-layer network: renaming nodes and elementary layers twice gives a network that is `==` to the one renamed at once, if each of
the renamings keeps different names different. -/
theorem C157_multiplex (hcs : cs ≠ []) (hnet : ∀ c, .net c ∉ cs) (hself : Spec.NoIntraSelf ops)
    (nodes1 nodes2 nodes12 : Dict α α) (layers1 layers2 layers12 : List (Dict α α))
    (h1 : ∀ k ≤ cs.length, ∀ x y, Spec.CarriesName cs.length al ops k x → Spec.CarriesName cs.length al ops k y →
      Spec.newName nodes1 layers1 k x = Spec.newName nodes1 layers1 k y → x = y)
    (h2 : ∀ k ≤ cs.length, ∀ x y, Spec.CarriesName cs.length al ops k x → Spec.CarriesName cs.length al ops k y →
      Spec.newName nodes2 layers2 k (Spec.newName nodes1 layers1 k x) = Spec.newName nodes2 layers2 k (Spec.newName nodes1 layers1 k y) →
      Spec.newName nodes1 layers1 k x = Spec.newName nodes1 layers1 k y)
    (h12 : ∀ k ≤ cs.length, ∀ x, Spec.CarriesName cs.length al ops k x → Spec.newName nodes12 layers12 k x =
      Spec.newName nodes2 layers2 k (Spec.newName nodes1 layers1 k x)) :
    ∃ p1 p2 p12, (afterP cs dir z al ops).relabel nodes1 layers1 = .ok p1 ∧ p1.relabel nodes2 layers2 = .ok p2 ∧
      (afterP cs dir z al ops).relabel nodes12 layers12 = .ok p12 ∧ p2.eq p12 = .ok true ∧ p12.eq p2 = .ok true := by
  have nm0 : ∀ x, Spec.CarriesName cs.length al ops 0 x ↔ Spec.Happened (Spec.NamesNodeP cs.length al x) ops := fun x => by
    unfold Spec.CarriesName; simp
  have nmS : ∀ a, 1 ≤ a → ∀ x, Spec.CarriesName cs.length al ops a x ↔ ∃ op ∈ ops, Spec.NamesLayerP cs.length al a x op := fun a ha x => by
    unfold Spec.CarriesName; rw [if_neg (by omega)]
  obtain ⟨ops1, e1, l1⟩ := C85_relabel (cs := cs) (dir := dir) (z := z) (al := al) hcs hnet hself nodes1 layers1
    (fun x y hx hy => h1 0 (by omega) x y ((nm0 x).2 hx) ((nm0 y).2 hy))
    (fun a ha hle x y hx hy => h1 a hle x y ((nmS a ha x).2 hx) ((nmS a ha y).2 hy))
  obtain ⟨ops12, e12, l12⟩ := C85_relabel (cs := cs) (dir := dir) (z := z) (al := al) hcs hnet hself nodes12 layers12
    (fun x y hx hy he => by
      have hx := (nm0 x).2 hx
      have hy := (nm0 y).2 hy
      rw [h12 0 (by omega) x hx, h12 0 (by omega) y hy] at he
      exact h1 0 (by omega) x y hx hy (h2 0 (by omega) x y hx hy he))
    (fun a ha hle x y hx hy he => by
      have hx := (nmS a ha x).2 hx
      have hy := (nmS a ha y).2 hy
      rw [h12 a hle x hx, h12 a hle y hy] at he
      exact h1 a hle x y hx hy (h2 a hle x y hx hy he))
  obtain ⟨ops2, e2, l2⟩ := C85_relabel (cs := cs) (dir := dir) (z := z) (al := al) hcs hnet l1.noself nodes2 layers2
    (fun x y hx hy he => by
      obtain ⟨x, hX, rfl⟩ := (l1.nodes x).1 hx
      obtain ⟨y, hY, rfl⟩ := (l1.nodes y).1 hy
      exact h2 0 (by omega) x y ((nm0 x).2 hX) ((nm0 y).2 hY) he)
    (fun a ha hle x y hx hy he => by
      obtain ⟨x, hX, rfl⟩ := (l1.layers a x ha hle).1 hx
      obtain ⟨y, hY, rfl⟩ := (l1.layers a y ha hle).1 hy
      exact h2 a hle x y ((nmS a ha x).2 hX) ((nmS a ha y).2 hY) he)
  have hl : ∀ {ops : List (POp α W)} {s : List α}, Spec.HasLayer cs.length al ops (.ofList s) → s.length = cs.length ∧
      ∀ (k : Nat) x, s[k]? = some x → ∃ op ∈ ops, Spec.NamesLayerP cs.length al (k + 1) x op := by
    rintro ops s ⟨t, e, ht, hn⟩
    cases ofList_inj' e
    exact ⟨ht, hn⟩
  have rlen : ∀ (f : Nat → α → α) (s : List α), (Spec.renamedLayer f s).length = s.length := fun f s => by
    unfold Spec.renamedLayer; simp
  have rget : ∀ (f : Nat → α → α) (s : List α) (k : Nat) y, (Spec.renamedLayer f s)[k]? = some y ↔ ∃ x, s[k]? = some x ∧ y = f (k + 1) x := by
    intro f s k y
    unfold Spec.renamedLayer
    rw [List.getElem?_mapIdx]
    rcases s[k]? with _ | x <;> simp [eq_comm]
  -- layers of the first copy
  have lay1 : ∀ s, Spec.HasLayer cs.length al ops (.ofList s) →
      Spec.HasLayer cs.length al ops1 (.ofList (Spec.renamedLayer (Spec.newName nodes1 layers1) s)) := by
    intro s hs
    obtain ⟨q1, q2⟩ := hl hs
    refine ⟨_, rfl, by rw [rlen, q1], fun k y hy => ?_⟩
    obtain ⟨x, hx, rfl⟩ := (rget _ _ _ _).1 hy
    have := (List.getElem?_eq_some_iff.1 hx).1
    exact (l1.layers (k + 1) _ (by omega) (by omega)).2 ⟨x, q2 k x hx, rfl⟩
  have lay1' : ∀ s1, Spec.HasLayer cs.length al ops1 (.ofList s1) →
      ∃ s, Spec.HasLayer cs.length al ops (.ofList s) ∧ s1 = Spec.renamedLayer (Spec.newName nodes1 layers1) s := by
    intro s1 hs
    obtain ⟨q1, q2⟩ := hl hs
    have : ∀ k : Fin cs.length, ∃ x, (∃ op ∈ ops, Spec.NamesLayerP cs.length al (k + 1) x op) ∧
        s1[k]? = some (Spec.newName nodes1 layers1 (k + 1) x) := by
      intro k
      have e : s1[(k : Nat)]? = some s1[(k : Nat)] := List.getElem?_eq_getElem (by omega)
      obtain ⟨x, hx, he⟩ := (l1.layers (k + 1) _ (by omega) (by omega)).1 (q2 k _ e)
      exact ⟨x, hx, by rw [← he]; exact e⟩
    choose g hg1 hg2 using this
    refine ⟨List.ofFn g, ⟨_, rfl, by simp, fun k x hx => ?_⟩, ?_⟩
    · obtain ⟨hk, rfl⟩ := List.getElem?_eq_some_iff.1 hx
      simp only [List.length_ofFn] at hk
      simpa using hg1 ⟨k, hk⟩
    · apply List.ext_getElem?
      intro k
      by_cases hk : k < cs.length
      · have := hg2 ⟨k, hk⟩
        rw [show s1[k]? = _ from this, ((rget _ _ _ _).2 ⟨g ⟨k, hk⟩, by simp [hk], rfl⟩)]
      · rw [List.getElem?_eq_none (by omega), List.getElem?_eq_none (by rw [rlen]; simp; omega)]
  -- the two renamings of a layer
  have layc : ∀ s, Spec.HasLayer cs.length al ops (.ofList s) →
      Spec.renamedLayer (Spec.newName nodes2 layers2) (Spec.renamedLayer (Spec.newName nodes1 layers1) s) =
        Spec.renamedLayer (Spec.newName nodes12 layers12) s := by
    intro s hs
    obtain ⟨q1, q2⟩ := hl hs
    refine renamedLayer_renamedLayer fun k x hx => ?_
    have := (List.getElem?_eq_some_iff.1 hx).1
    exact h12 (k + 1) (by omega) x ((nmS _ (by omega) x).2 (q2 k x hx))
  have nodc : ∀ x, Spec.Happened (Spec.NamesNodeP cs.length al x) ops →
      Spec.newName nodes2 layers2 0 (Spec.newName nodes1 layers1 0 x) = Spec.newName nodes12 layers12 0 x := fun x hx =>
    (h12 0 (by omega) x ((nm0 x).2 hx)).symm
  have nlc : ∀ u, Spec.HasNodeLayer cs.length al ops u →
      Spec.renamed (Spec.newName nodes2 layers2) (Spec.renamed (Spec.newName nodes1 layers1) u) =
        Spec.renamed (Spec.newName nodes12 layers12) u := by
    intro u hu
    obtain ⟨n, s, rfl, hs, hn, hls⟩ := hasNodeLayer_names hu
    rw [renamed_renamed]
    refine renamed_congr fun i x hx => ?_
    have := (List.getElem?_eq_some_iff.1 hx).1
    rcases i with _ | i
    · cases hx; exact nodc n hn
    · simp only [List.length_cons] at this
      exact (h12 (i + 1) (by omega) x ((nmS _ (by omega) x).2 (hls i x (by simpa using hx)))).symm
  -- links of the original network in both
  have both : ∀ s i j, Spec.HasLayer cs.length al ops (.ofList s) → Spec.Happened (Spec.NamesNodeP cs.length al i) ops →
      Spec.Happened (Spec.NamesNodeP cs.length al j) ops →
      Spec.readP cs.length dir al ops2 (Spec.renamedLayer (Spec.newName nodes12 layers12) s) (Spec.newName nodes12 layers12 0 i)
        (Spec.newName nodes12 layers12 0 j) =
      Spec.readP cs.length dir al ops12 (Spec.renamedLayer (Spec.newName nodes12 layers12) s) (Spec.newName nodes12 layers12 0 i)
        (Spec.newName nodes12 layers12 0 j) := by
    intro s i j hs hi hj
    rw [l12.link s i j hs hi hj, ← l1.link s i j hs hi hj,
      ← l2.link _ _ _ (lay1 s hs) ((l1.nodes _).2 ⟨i, hi, rfl⟩) ((l1.nodes _).2 ⟨j, hj, rfl⟩), layc s hs, nodc i hi, nodc j hj]
  have same : Spec.SameContentP cs.length dir al ops2 ops12 := by
    refine ⟨fun n => ?_, fun a x ha => ?_, fun u => ?_, fun s i j hsl => ?_⟩
    · rw [l2.nodes, l12.nodes]
      constructor
      · rintro ⟨y, hy, rfl⟩
        obtain ⟨x, hx, rfl⟩ := (l1.nodes y).1 hy
        exact ⟨x, hx, nodc x hx⟩
      · rintro ⟨x, hx, rfl⟩
        exact ⟨_, (l1.nodes _).2 ⟨x, hx, rfl⟩, (nodc x hx).symm⟩
    · by_cases hle : a ≤ cs.length
      · rw [l2.layers a x ha hle, l12.layers a x ha hle]
        constructor
        · rintro ⟨y, hy, rfl⟩
          obtain ⟨x, hx, rfl⟩ := (l1.layers a y ha hle).1 hy
          exact ⟨x, hx, (h12 a hle x ((nmS a ha x).2 hx)).symm⟩
        · rintro ⟨x, hx, rfl⟩
          exact ⟨_, (l1.layers a _ ha hle).2 ⟨x, hx, rfl⟩, h12 a hle x ((nmS a ha x).2 hx)⟩
      · exact ⟨fun ⟨op, _, h⟩ => absurd (namesLayerP_le ha h) hle, fun ⟨op, _, h⟩ => absurd (namesLayerP_le ha h) hle⟩
    · rw [l2.nodeLayers, l12.nodeLayers]
      constructor
      · rintro ⟨v, hv, rfl⟩
        obtain ⟨w, hw, rfl⟩ := (l1.nodeLayers v).1 hv
        exact ⟨w, hw, nlc w hw⟩
      · rintro ⟨w, hw, rfl⟩
        exact ⟨_, (l1.nodeLayers _).2 ⟨w, hw, rfl⟩, (nlc w hw).symm⟩
    · have hsl := (hl hsl).1
      by_cases q2 : Spec.readP cs.length dir al ops2 s i j = 0
      · by_cases q12 : Spec.readP cs.length dir al ops12 s i j = 0
        · rw [q2, q12]
        · obtain ⟨s0, i0, j0, g1, g2, g3, rfl, rfl, rfl⟩ := l12.onlyLinks s i j hsl q12
          exact both s0 i0 j0 g1 g2 g3
      · obtain ⟨s1, i1, j1, g1, g2, g3, rfl, rfl, rfl⟩ := l2.onlyLinks s i j hsl q2
        obtain ⟨s0, k1, rfl⟩ := lay1' s1 g1
        obtain ⟨i0, k2, rfl⟩ := (l1.nodes i1).1 g2
        obtain ⟨j0, k3, rfl⟩ := (l1.nodes j1).1 g3
        rw [layc s0 k1, nodc i0 k2, nodc j0 k3]
        exact both s0 i0 j0 k1 k2 k3
  have hnn : ∀ c ∈ cs, Spec.NotNet c := fun c hc m e => hnet m (e ▸ hc)
  obtain ⟨b, q1, q2⟩ := C51_eq hcs hcs hnn hnn dir dir z z al al ops2 ops12
  obtain ⟨b', q1', q2'⟩ := C51_eq hcs hcs hnn hnn dir dir z z al al ops12 ops2
  obtain rfl := q2.2 ⟨rfl, rfl, rfl, rfl, same⟩
  obtain rfl := q2'.2 ⟨rfl, rfl, rfl, rfl, same.symm⟩
  exact ⟨_, _, _, e1, e2, e12, q1, q1'⟩

/-! ### concrete cases -/

/-- two of three nodes, and then one of two layers, of a multiplex network that is not node-aligned -/
example : ∃ p1 p2 p12, (afterP [.categorical (1 : Int)] false 0 false exSubOps).subnet [some [1, 2], none] false = .ok p1 ∧
    p1.subnet [none, some [10]] false = .ok p2 ∧
    (afterP [.categorical (1 : Int)] false 0 false exSubOps).subnet [some [1, 2], some [10]] false = .ok p12 ∧
    p2.eq p12 = .ok true ∧ p12.eq p2 = .ok true := by
  have hlay : ∃ op ∈ exSubOps, Spec.NamesLayerP 1 false 1 (10 : Int) op :=
    ⟨_, List.mem_cons_self, _, rfl, [1, 10], [2, 10], ⟨rfl, rfl, Or.inr ⟨1, 2, [10], rfl, rfl, rfl⟩⟩, Or.inl rfl⟩
  refine C156_multiplex (by simp) (by simp) rfl rfl rfl ?_ false false (Or.inr ?_) (Or.inr ?_) (Or.inr ?_)
  · intro k hk x
    have : k = 0 ∨ k = 1 := by simp at hk; omega
    rcases this with rfl | rfl <;> simp [Spec.Admits]
  · rintro (_ | _ | a) l x ha hl hx <;> simp at ha hl
  · rintro (_ | _ | a) l x ha hl hx <;> simp at ha hl
    subst hl
    simp only [List.mem_singleton] at hx
    subst hx
    exact ⟨hlay, by simp [Spec.Admits]⟩
  · rintro (_ | _ | a) l x ha hl hx <;> simp at ha hl
    subst hl
    simp only [List.mem_singleton] at hx
    subst hx
    exact ⟨hlay, trivial⟩

theorem swapI_inj (k : Nat) (x y : Int) (h : Spec.newName [(1, 2), (2, 1)] [[]] k x = Spec.newName [(1, 2), (2, 1)] [[]] k y) : x = y := by
  rcases k with _ | _ | k <;> simp [Spec.newName, Dict.get] at h <;> try exact h
  split_ifs at h <;> simp only [Option.getD_some, Option.getD_none] at h <;> omega

/-- the nodes 1 and 2 of a multiplex network exchanged twice -/
example : ∃ p1 p2 p12, (afterP [.categorical (1 : Int)] false 0 true exSubOps).relabel [(1, 2), (2, 1)] [[]] = .ok p1 ∧
    p1.relabel [(1, 2), (2, 1)] [[]] = .ok p2 ∧ (afterP [.categorical (1 : Int)] false 0 true exSubOps).relabel [] [[]] = .ok p12 ∧
    p2.eq p12 = .ok true ∧ p12.eq p2 = .ok true := by
  refine C157_multiplex (by simp) (by simp) (by intro L i w h; simp [exSubOps] at h) _ _ _ _ _ _ (fun k _ x y _ _ h => swapI_inj k x y h)
    (fun k _ x y _ _ h => swapI_inj k _ _ h) fun k hk x _ => ?_
  rcases k with _ | _ | k <;> simp [Spec.newName, Dict.get]
  by_cases h1 : 1 = x
  · subst h1; simp
  · by_cases h2 : 2 = x
    · subst h2; simp
    · simp [h1, h2]

end Pymnet
