import Verif.Props.CommutePlex
import Verif.Props.Laws

/-! C158 for multiplex networks. -/

set_option linter.unusedSectionVars false

namespace Pymnet

open Py MPlex

variable {α W : Type} [DecidableEq α] [DecidableEq W]

theorem hasNameP_iff {d : Nat} {al : Bool} {ops : List (POp α W)} (k : Nat) (x : α) :
    Spec.HasNameP d al ops k x ↔ Spec.CarriesName d al ops k x := by
  unfold Spec.HasNameP Spec.CarriesName
  rfl

variable [Zero W] [LawfulIntNames α] {cs : List (Coupling α W)} {al : Bool} {ops : List (POp α W)}

/-- Internal: the links of a renamed multiplex network. -/
theorem linkWeight_renamed {dir : Bool} {f : Nat → α → α} {ops' : List (POp α W)} (hcs : cs ≠ [])
    (hinj : ∀ k ≤ cs.length, ∀ x y, Spec.CarriesName cs.length al ops k x → Spec.CarriesName cs.length al ops k y → f k x = f k y → x = y)
    (hord : ∀ d w x, cs[d]? = some (.ordinal w) → f (d + 1) x = x)
    (l : Spec.RenamedNet cs.length dir al ops f ops') {u v : List α} (hu : Spec.HasNodeLayer cs.length al ops u)
    (hv : Spec.HasNodeLayer cs.length al ops v) :
    ∀ w, Spec.LinkWeight cs dir al ops u v w ↔ Spec.LinkWeight cs dir al ops' (Spec.renamed f u) (Spec.renamed f v) w := by
  intro w
  obtain ⟨i, s, rfl, hs, hi, hsn⟩ := hasNodeLayer_names hu
  obtain ⟨j, t, rfl, ht, hj, htn⟩ := hasNodeLayer_names hv
  have hi0 : Spec.CarriesName cs.length al ops 0 i := by unfold Spec.CarriesName; rw [if_pos rfl]; exact hi
  have hj0 : Spec.CarriesName cs.length al ops 0 j := by unfold Spec.CarriesName; rw [if_pos rfl]; exact hj
  have hsC : ∀ (k : Nat) x, s[k]? = some x → Spec.CarriesName cs.length al ops (k + 1) x := fun k x h => by
    unfold Spec.CarriesName; rw [if_neg (by omega)]; exact hsn k x h
  have htC : ∀ (k : Nat) x, t[k]? = some x → Spec.CarriesName cs.length al ops (k + 1) x := fun k x h => by
    unfold Spec.CarriesName; rw [if_neg (by omega)]; exact htn k x h
  have hsl : Spec.HasLayer cs.length al ops (.ofList s) := ⟨s, rfl, hs, hsn⟩
  have ren : ∀ (x : α) (s : List α), Spec.renamed f (x :: s) = f 0 x :: Spec.renamedLayer f s := fun x s => by
    unfold Spec.renamed Spec.renamedLayer; simp
  have get : ∀ (s : List α) (k : Nat), (Spec.renamedLayer f s)[k]? = s[k]?.map (f (k + 1)) := fun s k => by
    unfold Spec.renamedLayer; rw [List.getElem?_mapIdx]
  have lt : ∀ {s : List α} {k : Nat} {x : α}, s.length = cs.length → s[k]? = some x → k + 1 ≤ cs.length := by
    intro s k x h1 h2
    have := (List.getElem?_eq_some_iff.1 h2).1
    omega
  -- places where the renamed layers agree
  have agree : ∀ k, s[k]?.map (f (k + 1)) = t[k]?.map (f (k + 1)) → s[k]? = t[k]? := by
    intro k hk
    rcases ea : s[k]? with _ | x
    · rw [List.getElem?_eq_none_iff] at ea
      rw [List.getElem?_eq_none (by omega)]
    · rcases eb : t[k]? with _ | y
      · rw [List.getElem?_eq_none_iff] at eb
        have := (List.getElem?_eq_some_iff.1 ea).1
        omega
      · rw [ea, eb] at hk
        simp only [Option.map_some, Option.some.injEq] at hk
        rw [hinj (k + 1) (lt hs ea) x y (hsC k x ea) (htC k y eb) hk]
  rw [ren, ren]
  constructor
  · rintro (⟨i', j', s', e1, e2, hij, hw, hw0⟩ | ⟨i', s', t', e1, e2, d, x, y, hx, hxy, rfl, hc⟩)
    · obtain ⟨rfl, rfl⟩ := List.cons.inj e1
      obtain ⟨rfl, rfl⟩ := List.cons.inj e2
      refine .inl ⟨_, _, _, rfl, rfl, fun e => hij (hinj 0 (by omega) i j hi0 hj0 e), ?_, hw0⟩
      rw [hw]
      exact (l.link _ _ _ hsl hi hj).symm
    · obtain ⟨rfl, rfl⟩ := List.cons.inj e1
      obtain ⟨rfl, rfl⟩ := List.cons.inj e2
      have hdlt := (List.getElem?_eq_some_iff.1 hx).1
      have hy : (s.set d y)[d]? = some y := by simp [hdlt]
      have hfxy : f (d + 1) x ≠ f (d + 1) y := fun e => hxy (hinj (d + 1) (lt hs hx) x y (hsC d x hx) (htC d y hy) e)
      refine .inr ⟨_, _, _, rfl, rfl, d, f (d + 1) x, f (d + 1) y, by rw [get, hx]; rfl, hfxy, ?_, ?_⟩
      · apply List.ext_getElem?
        intro k
        rw [get, List.getElem?_set, List.getElem?_set, get]
        have hl : (Spec.renamedLayer f s).length = s.length := by unfold Spec.renamedLayer; simp
        rw [hl]
        by_cases hk : d = k
        · subst hk; simp [hdlt]
        · simp [hk]
      · rcases hc with hc | ⟨hc, h1⟩
        · exact .inl hc
        · rw [hord d w x hc, hord d w y hc]; exact .inr ⟨hc, h1⟩
  · rintro (⟨i', j', s', e1, e2, hij, hw, hw0⟩ | ⟨i', s', t', e1, e2, d, x, y, hx, hxy, rfl, hc⟩)
    · obtain ⟨rfl, k1⟩ := List.cons.inj e1
      obtain ⟨rfl, k2⟩ := List.cons.inj e2
      have hst : s = t := by
        apply List.ext_getElem?
        intro k
        apply agree
        rw [← get, ← get, k1, k2]
      subst hst
      subst k1
      refine .inl ⟨_, _, _, rfl, rfl, fun e => hij (by rw [e]), ?_, hw0⟩
      rw [hw]
      exact l.link _ _ _ hsl hi hj
    · obtain ⟨rfl, rfl⟩ := List.cons.inj e1
      obtain ⟨e0, k2⟩ := List.cons.inj e2
      have hijE : i = j := (hinj 0 (by omega) j i hj0 hi0 e0).symm
      subst hijE
      rw [get] at hx
      obtain ⟨x0, hx0, rfl⟩ := Option.map_eq_some_iff.1 hx
      have hdlt := (List.getElem?_eq_some_iff.1 hx0).1
      have hdt : d < t.length := by omega
      have hl : (Spec.renamedLayer f s).length = s.length := by unfold Spec.renamedLayer; simp
      have hyt : f (d + 1) t[d] = y := by
        have := congrArg (fun l => l[d]?) k2
        simp only [get, List.getElem?_set_self (show d < (Spec.renamedLayer f s).length by omega)] at this
        rw [List.getElem?_eq_getElem hdt] at this
        simpa using this
      subst hyt
      refine .inr ⟨_, _, _, rfl, rfl, d, x0, t[d], hx0, fun e => hxy (by rw [e]), ?_, ?_⟩
      · apply List.ext_getElem?
        intro k
        by_cases hk : d = k
        · subst hk
          rw [List.getElem?_set_self hdlt, List.getElem?_eq_getElem hdt]
        · rw [List.getElem?_set_ne hk]
          refine (agree k ?_).symm
          rw [← get, ← get, k2, List.getElem?_set_ne hk]
      · rcases hc with hc | ⟨hc, h1⟩
        · exact .inl hc
        · rw [hord d w _ hc, hord d w _ hc] at h1; exact .inr ⟨hc, h1⟩

/-- Internal: the same, without weights. -/
theorem linked_renamed {dir : Bool} {f : Nat → α → α} {ops' : List (POp α W)} (hcs : cs ≠ [])
    (hinj : ∀ k ≤ cs.length, ∀ x y, Spec.CarriesName cs.length al ops k x → Spec.CarriesName cs.length al ops k y → f k x = f k y → x = y)
    (hord : ∀ d w x, cs[d]? = some (.ordinal w) → f (d + 1) x = x)
    (l : Spec.RenamedNet cs.length dir al ops f ops') {u v : List α} (hu : Spec.HasNodeLayer cs.length al ops u)
    (hv : Spec.HasNodeLayer cs.length al ops v) :
    Spec.Linked cs dir al ops u v ↔ Spec.Linked cs dir al ops' (Spec.renamed f u) (Spec.renamed f v) :=
  exists_congr (linkWeight_renamed hcs hinj hord l hu hv)

/-- **C158, multiplex networks.** For every undirected multiplex network with missing value 0 and categorical or ordinal couplings that is
node-aligned, or has one aspect with categorical couplings, and without self-links written through an intra-layer network: if only names of
the allowed aspects change, different names stay different, and the layers of ordinal aspects keep their names, `is_isomorphic` of the
network and its renamed copy is `True`, and the complete invariants are the same, for every correct backend. -/
theorem C158_multiplex [LinearOrder α] {β : Type} (hU : Spec.Usable cs al ops) (hs : Spec.NoIntraSelf ops) (hal : al = true ∨ ∃ w, cs = [.categorical w])
    {allowed : Option (List Nat)} (haa : ∀ a ∈ Spec.mayChange cs.length allowed, a ≤ cs.length) (nodes : Dict α α) (layers : List (Dict α α))
    (hinj : ∀ k ≤ cs.length, ∀ x y, Spec.HasNameP cs.length al ops k x → Spec.HasNameP cs.length al ops k y →
      Spec.newName nodes layers k x = Spec.newName nodes layers k y → x = y)
    (hord : ∀ d w x, cs[d]? = some (.ordinal w) → Spec.newName nodes layers (d + 1) x = x)
    (hfix : ∀ k ≤ cs.length, k ∉ Spec.mayChange cs.length allowed → ∀ x, Spec.newName nodes layers k x = x)
    {match? : CGraph → CGraph → Option (Dict Nat Nat)} (hF : Spec.FindsIso match?) {canon : CGraph → β} (hC : Spec.Canonical canon) :
    ∃ p' c, (afterP cs false 0 al ops).relabel nodes layers = .ok p' ∧
      isIsomorphic match? (afterP cs false 0 al ops).view p'.view allowed = .ok true ∧
      completeInvariant canon (afterP cs false 0 al ops).view allowed = .ok c ∧ completeInvariant canon p'.view allowed = .ok c := by
  have hcs := hU.some_aspect
  have hnet : ∀ c, .net c ∉ cs := by
    intro c hc
    obtain ⟨w, -, h | h⟩ := hU.kind _ hc <;> cases h
  have nm0 : ∀ {ops : List (POp α W)} x, Spec.CarriesName cs.length al ops 0 x ↔ Spec.Happened (Spec.NamesNodeP cs.length al x) ops := fun x => by
    unfold Spec.CarriesName; simp
  have nmS : ∀ {ops : List (POp α W)} a, 1 ≤ a → ∀ x, Spec.CarriesName cs.length al ops a x ↔ ∃ op ∈ ops, Spec.NamesLayerP cs.length al a x op := fun a ha x => by
    unfold Spec.CarriesName; rw [if_neg (by omega)]
  simp only [hasNameP_iff] at hinj
  obtain ⟨ops', e1, l⟩ := C85_relabel (cs := cs) (dir := false) (z := 0) (al := al) hcs hnet hs nodes layers
    (fun x y hx hy => hinj 0 (by omega) x y ((nm0 x).2 hx) ((nm0 y).2 hy))
    (fun a ha hle x y hx hy => hinj a hle x y ((nmS a ha x).2 hx) ((nmS a ha y).2 hy))
  set f := Spec.newName nodes layers with hf
  have hU1 : Spec.Usable cs al ops' := ⟨hcs, hU.kind, fun d w x hd hx => by
    obtain ⟨y, hy, rfl⟩ := (l.layers (d + 1) x (by omega) (by have := (List.getElem?_eq_some_iff.1 hd).1; omega)).1 hx
    rw [hord d w y hd]
    exact hU.ints d w y hd hy⟩
  have names : ∀ k ≤ cs.length, ∀ y, Spec.CarriesName cs.length al ops' k y ↔ ∃ x, Spec.CarriesName cs.length al ops k x ∧ y = f k x := by
    intro k hk y
    rcases k with _ | k
    · simp only [nm0]; exact l.nodes y
    · simp only [nmS (k + 1) (by omega)]; exact l.layers (k + 1) y (by omega) hk
  have iso : Spec.Isomorphism cs.length (Spec.mayChange cs.length allowed) (Spec.HasNameP cs.length al ops) (Spec.HasNodeLayer cs.length al ops)
      (fun u v => Spec.weight cs false al ops u v ≠ 0) (Spec.HasNameP cs.length al ops') (Spec.HasNodeLayer cs.length al ops')
      (fun u v => Spec.weight cs false al ops' u v ≠ 0) f := by
    refine ⟨hfix, fun k hk _ => ⟨fun x hx => ?_, fun x hx y hy he => ?_, fun y hy => ?_⟩, l.nodeLayers, fun u v hu hv => ?_⟩
    · exact (hasNameP_iff _ _).2 ((names k hk _).2 ⟨x, (hasNameP_iff _ _).1 hx, rfl⟩)
    · exact hinj k hk x y ((hasNameP_iff _ _).1 hx) ((hasNameP_iff _ _).1 hy) he
    · obtain ⟨x, hx, rfl⟩ := (names k hk y).1 ((hasNameP_iff _ _).1 hy)
      exact ⟨x, (hasNameP_iff _ _).2 hx, rfl⟩
    · rw [(after_weight hcs false al ops hU hu hv).2, linked_renamed hcs hinj hord l hu hv]
      exact (after_weight hcs false al ops' hU1 ((l.nodeLayers _).2 ⟨u, hu, rfl⟩) ((l.nodeLayers _).2 ⟨v, hv, rfl⟩)).2.symm
  obtain ⟨c, c', q1, q2, q3⟩ := C56_multiplex hU hs hal hU1 l.noself hal rfl haa hC
  obtain rfl := q3.2 ⟨_, iso⟩
  exact ⟨_, c, e1, (C41_multiplex_partial hU hs hal hU1 l.noself hal rfl haa hF).1.2 ⟨_, iso⟩, q1, q2⟩

/-- two nodes of a multiplex network that is not node-aligned exchanged -/
example {match? : CGraph → CGraph → Option (Dict Nat Nat)} (hF : Spec.FindsIso match?) :
    ∃ p', (afterP [.categorical (1 : Int)] false 0 false exSubOps).relabel [(1, 2), (2, 1)] [[]] = .ok p' ∧
      isIsomorphic match? (afterP [.categorical (1 : Int)] false 0 false exSubOps).view p'.view none = .ok true := by
  obtain ⟨canon, hC⟩ := exists_canonical
  obtain ⟨p', c, e1, e2, -⟩ := C158_multiplex (cs := [.categorical (1 : Int)]) (al := false) (ops := exSubOps) (allowed := none)
    ⟨by simp, by simp, by rintro (_ | d) w x h <;> simp at h⟩ (by intro L i w h; simp [exSubOps] at h) (Or.inr ⟨1, rfl⟩)
    (fun a ha => by simp [Spec.mayChange] at ha; simp; omega) [(1, 2), (2, 1)] [[]] (fun k _ x y _ _ h => swapI_inj k x y h)
    (by rintro (_ | d) w x h <;> simp at h) (fun k hk hnot x => absurd (List.mem_range.2 (by omega)) hnot) hF hC
  exact ⟨p', e1, e2⟩

end Pymnet
