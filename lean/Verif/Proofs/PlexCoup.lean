import Verif.Proofs.PlexRead

set_option linter.unusedSectionVars false
set_option linter.unusedSimpArgs false
set_option linter.unnecessarySimpa false

namespace Pymnet

open Py

/-- `+1` and `-1` behave as on the integers wherever they are defined. -/
class LawfulIntNames (α : Type) extends IntNames α where
  up_down : ∀ a b : α, up a = some b ↔ down b = some a
  up_ne : ∀ a : α, up a ≠ some a
  up_up : ∀ a b : α, up a = some b → up b ≠ some a

instance : LawfulIntNames Int where
  up_down := by intro a b; simp [IntNames.up, IntNames.down]; omega
  up_ne := by intro a; simp [IntNames.up]
  up_up := by intro a b; simp [IntNames.up]; omega

namespace MPlex

variable {α W : Type} [DecidableEq α] [DecidableEq W] [Zero W]

/-- the value of a read, `d` if it raises -/
def okD {W : Type} (e : Except Err W) (d : W) : W :=
  match e with
  | .ok w => w
  | .error _ => d

@[simp] theorem okD_ok {W : Type} (w d : W) : okD (.ok w) d = w := rfl
@[simp] theorem okD_error {W : Type} (e : Err) (d : W) : okD (.error e) d = d := rfl

omit [Zero W] in
theorem R_eq [IntNames α] (p : MPlex α W) (u v : List α) : p.R u v = okD (p.getLink (interleave u v)) p.noEdge := by
  unfold R okD
  cases p.getLink (interleave u v) <;> rfl

/-- the coupling of aspect `d+1` is one for which the read, iteration and degree code is meaningful -/
def CoupOk [IntNames α] (p : MPlex α W) (d : Nat) : Coupling α W → Prop
  | .categorical w => w ≠ 0
  | .ordinal w => w ≠ 0 ∧ ∀ x, p.inSlice (d + 1) x → (IntNames.up x).isSome = true ∧ (IntNames.down x).isSome = true
  | .uncoupled _ => True
  | .net _ => False

theorem inSlice_getElem? {p : MPlex α W} {a : Nat} {x : α} {s : List α} (hs : p.slices[a]? = some s) :
    p.inSlice a x ↔ x ∈ s := by
  constructor
  · rintro ⟨t, ht, hx⟩; rw [hs] at ht; cases ht; exact hx
  · intro hx; exact ⟨s, hs, hx⟩

section aligned
variable [LawfulIntNames α] {p : MPlex α W}

/-- reading the coupling of aspect `d+1` at node-layer `n :: s` in an aligned network -/
theorem R_aligned (h : p.P0) (hf : p.fic = true) {u : List α} (hu : u ∈ product p.slices) {d : Nat} {x y : α}
    (hx : u[d + 1]? = some x) (hxy : x ≠ y) {c : Coupling α W} (hc : p.couplings[d]? = some c) :
    p.R u (u.set (d + 1) y) = okD (p.couplingRead c x y) p.noEdge := by
  obtain ⟨i, s, rfl⟩ := product_cons h hu
  have hi : i ∈ p.slices.headD [] := by
    rw [head_inSlice (by rw [h.slen]; omega)]
    exact ((mem_product_iff h _).1 hu).2 0 i rfl
  rw [R_eq, List.set_cons_succ, getLink_aligned hf (by simpa using hx) hxy hi hc]

omit [Zero W] in
/-- ordinal coupling reads the weight exactly between consecutive layers -/
theorem couplingRead_ordinal {x y x' y' : α} (w : W) (hx : IntNames.up x = some x') (hy : IntNames.up y = some y') :
    p.couplingRead (.ordinal w) x y = .ok (if x' = y ∨ x = y' then w else p.noEdge) := by
  unfold couplingRead
  simp only [hx, hy]
  by_cases h1 : x' = y
  · simp [h1]
  · by_cases h2 : x = y'
    · simp [h1, h2]
    · simp [h1, h2]

theorem good_aligned (h : p.PInv) (hf : p.fic = true) (hne : p.noEdge = 0)
    (hns : ∀ L a, p.lkA L [a] [a] = none)
    (hc : ∀ d c, p.couplings[d]? = some c → p.CoupOk d c) {u : List α} (hu : u ∈ product p.slices) :
    p.Good u ∧
    (∀ a, 1 ≤ a → ∀ l, p.iterDim u a = .ok l → ∀ dir, p.dimDegree u a dir = .ok (l.length : Int)) := by
  obtain ⟨i, s, hui⟩ := product_cons h.core hu
  obtain ⟨hlen, hreg⟩ := (mem_product_iff h.core _).1 hu
  -- description of one aspect
  have key : ∀ a, 1 ≤ a → a ≤ p.aspects → ∃ ns, p.DimOk u a ns ∧ ∀ dir, p.dimDegree u a dir = .ok (ns.length : Int) := by
    intro a h1 h2
    obtain ⟨d, rfl⟩ : ∃ d, a = d + 1 := ⟨a - 1, by omega⟩
    have hd : d < p.couplings.length := by rw [h.core.clen]; omega
    obtain ⟨c, hcd⟩ : ∃ c, p.couplings[d]? = some c := ⟨_, List.getElem?_eq_getElem hd⟩
    have hs : d + 1 < p.slices.length := by rw [h.core.slen]; omega
    obtain ⟨S, hS⟩ : ∃ S, p.slices[d + 1]? = some S := ⟨_, List.getElem?_eq_getElem hs⟩
    have hSn : S.Nodup := h.core.snodup S (List.mem_of_getElem? hS)
    obtain ⟨x, hx⟩ : ∃ x, u[d + 1]? = some x := ⟨_, List.getElem?_eq_getElem (by omega)⟩
    have hxS : x ∈ S := (inSlice_getElem? hS).1 (hreg _ _ hx)
    have ok := hc d c hcd
    have hR : ∀ y, x ≠ y → p.R u (u.set (d + 1) y) =
        okD (p.couplingRead c x y) p.noEdge :=
      fun y hy => R_aligned h.core hf hu hx hy hcd
    have hmem : ∀ y, (p.inSlice (d + 1) y ∧ u[d + 1]? ≠ some y ∧ p.R u (u.set (d + 1) y) ≠ p.noEdge) ↔
        y ∈ S ∧ y ≠ x ∧ okD (p.couplingRead c x y) p.noEdge ≠ p.noEdge := by
      intro y
      rw [inSlice_getElem? hS, hx]
      refine and_congr_right fun _ => ?_
      constructor
      · rintro ⟨h3, h4⟩
        have hxy : x ≠ y := fun e => h3 (by rw [e])
        exact ⟨hxy.symm, by rw [← hR y hxy]; exact h4⟩
      · rintro ⟨h3, h4⟩
        exact ⟨by simpa using fun e => h3 e.symm, by rw [hR y h3.symm]; exact h4⟩
    cases c with
    | categorical w =>
      refine ⟨S.filter (· ≠ x), ⟨?_, hSn.filter _, ?_⟩, ?_⟩
      · unfold iterDim
        subst hui
        simp only [Nat.add_sub_cancel, hcd, hf, if_true, hS, hx]
      · intro y
        rw [hmem y]
        simp only [CoupOk] at ok
        simp [couplingRead, hne, ok]
      · intro dir
        unfold dimDegree
        subst hui
        simp only [Nat.add_sub_cancel, hcd, hf, if_true, hS]
        congr 1
        have := List.length_erase_of_mem hxS
        rw [hSn.erase_eq_filter x] at this
        have hpos : 0 < S.length := List.length_pos_of_mem hxS
        have e : (S.filter fun y => decide (y ≠ x)) = S.filter (fun y => y != x) := by
          refine List.filter_congr fun y _ => ?_
          rw [bne, Bool.eq_iff_iff]; simp
        rw [e, this]; omega
    | ordinal w =>
      obtain ⟨ok1, ok2⟩ := ok
      obtain ⟨o1, o2⟩ := ok2 x (hreg _ _ hx)
      obtain ⟨up, hup⟩ := Option.isSome_iff_exists.1 o1
      obtain ⟨dn, hdn⟩ := Option.isSome_iff_exists.1 o2
      have hud : up ≠ dn := by
        intro e
        have := (LawfulIntNames.up_down dn x).2 hdn
        rw [← e] at this
        exact LawfulIntNames.up_up _ _ hup this
      have hux : up ≠ x := by
        intro e; rw [e] at hup; exact LawfulIntNames.up_ne _ hup
      have hdx : dn ≠ x := by
        intro e; rw [e] at hdn
        exact LawfulIntNames.up_ne _ ((LawfulIntNames.up_down x x).2 hdn)
      refine ⟨(if up ∈ S then [up] else []) ++ (if dn ∈ S then [dn] else []), ⟨?_, ?_, ?_⟩, ?_⟩
      · unfold iterDim
        subst hui
        simp only [Nat.add_sub_cancel, hcd, hf, if_true, hS, hx, hup, hdn]
        congr 1
        by_cases m1 : up ∈ S <;> by_cases m2 : dn ∈ S <;> simp [m1, m2]
      · by_cases m1 : up ∈ S <;> by_cases m2 : dn ∈ S <;> simp [m1, m2, hud]
      · intro y
        rw [hmem y]
        have hy : y ∈ S → (y ≠ x ∧ okD (p.couplingRead (.ordinal w) x y) p.noEdge ≠ p.noEdge ↔ y = up ∨ y = dn) := by
          intro hyS
          obtain ⟨o3, o4⟩ := ok2 y ((inSlice_getElem? hS).2 hyS)
          obtain ⟨y', hy'⟩ := Option.isSome_iff_exists.1 o3
          rw [couplingRead_ordinal w hup hy']
          have e1 : x = y' ↔ y = dn := by
            constructor
            · rintro rfl
              have := (LawfulIntNames.up_down y x).1 hy'
              rw [hdn] at this; cases this; rfl
            · rintro rfl
              have := (LawfulIntNames.up_down y x).2 hdn
              rw [hy'] at this; cases this; rfl
          by_cases c1 : y = up
          · subst c1; simp [hux, hne, ok1]
          · by_cases c2 : y = dn
            · have h7 := e1.2 c2
              have h8 : y ≠ y' := by rw [← h7, c2]; exact hdx
              subst c2; simp [h8, hne, ok1, h7]
            · have h5 : up ≠ y := fun e => c1 e.symm
              have h6 : ¬ x = y' := fun e => c2 (e1.1 e)
              simp [c1, c2, h5, h6]
        constructor
        · intro hm
          have : y ∈ S ∧ (y = up ∨ y = dn) := by
            rcases List.mem_append.1 hm with hm | hm
            · split at hm
              · rename_i m; simp at hm; subst hm; exact ⟨m, Or.inl rfl⟩
              · cases hm
            · split at hm
              · rename_i m; simp at hm; subst hm; exact ⟨m, Or.inr rfl⟩
              · cases hm
          exact ⟨this.1, (hy this.1).2 this.2⟩
        · rintro ⟨h3, h4⟩
          rcases (hy h3).1 h4 with rfl | rfl
          · simp [h3]
          · simp [h3]
      · intro dir
        unfold dimDegree
        subst hui
        simp only [Nat.add_sub_cancel, hcd, hf, if_true, hS, hx, hup, hdn]
        congr 1
        unfold ordCount
        by_cases m1 : up ∈ S <;> by_cases m2 : dn ∈ S <;> simp [m1, m2]
    | uncoupled w =>
      refine ⟨[], ⟨?_, by simp, ?_⟩, ?_⟩
      · unfold iterDim
        subst hui
        simp only [Nat.add_sub_cancel, hcd, List.map_nil]
      · intro y
        rw [hmem y]
        simp [couplingRead]
      · intro dir
        unfold dimDegree
        subst hui
        simp only [Nat.add_sub_cancel, hcd]
        rfl
    | net c => exact ok.elim
  refine ⟨⟨h.core, hne, hns, hu, fun a h1 h2 => ?_, ?_⟩, ?_⟩
  · obtain ⟨ns, h3, -⟩ := key a h1 h2
    exact ⟨ns, h3⟩
  · intro a h1 y hy hin
    have ha : a < u.length := by
      obtain ⟨S, hS, -⟩ := hin
      have := (List.getElem?_eq_some_iff.1 hS).1
      rw [h.core.slen] at this; omega
    obtain ⟨d, rfl⟩ : ∃ d, a = d + 1 := ⟨a - 1, by omega⟩
    obtain ⟨x, hx⟩ : ∃ x, u[d + 1]? = some x := ⟨_, List.getElem?_eq_getElem ha⟩
    have hd : d < p.couplings.length := by rw [h.core.clen]; omega
    obtain ⟨c, hcd⟩ : ∃ c, p.couplings[d]? = some c := ⟨_, List.getElem?_eq_getElem hd⟩
    have hxy : x ≠ y := by rintro rfl; exact hy hx
    have e : u = (u.set (d + 1) y).set (d + 1) x := by
      rw [List.set_set]
      apply List.ext_getElem?
      intro b
      by_cases hb : d + 1 = b
      · subst hb; rw [List.getElem?_set_self ha, hx]
      · rw [List.getElem?_set_ne hb]
    rw [R_aligned h.core hf hu hx hxy hcd]
    have e2 : p.R (u.set (d + 1) y) u = p.R (u.set (d + 1) y) ((u.set (d + 1) y).set (d + 1) x) := by rw [← e]
    rw [e2, R_aligned h.core hf (set_mem_product h.core hu hin) (x := y) (by rw [List.getElem?_set_self ha])
      hxy.symm hcd]
    have ok := hc d c hcd
    cases c with
    | categorical w => rfl
    | ordinal w =>
      obtain ⟨ok1, ok2⟩ := ok
      obtain ⟨x', hx'⟩ := Option.isSome_iff_exists.1 (ok2 x (hreg _ _ hx)).1
      obtain ⟨y', hy'⟩ := Option.isSome_iff_exists.1 (ok2 y hin).1
      rw [couplingRead_ordinal w hx' hy', couplingRead_ordinal w hy' hx']
      have : (x' = y ∨ x = y') ↔ (y' = x ∨ y = x') := by
        constructor <;> rintro (h | h)
        · exact Or.inr h.symm
        · exact Or.inl h.symm
        · exact Or.inr h.symm
        · exact Or.inl h.symm
      simp only [this]
    | uncoupled w => rfl
    | net c => exact ok.elim
  · intro a h1 l hl dir
    by_cases h2 : a ≤ p.aspects
    · obtain ⟨ns, h3, h4⟩ := key a h1 h2
      rw [h3.iter] at hl; cases hl
      rw [h4]; simp
    · have : p.couplings[a - 1]? = none := by
        apply List.getElem?_eq_none; rw [h.core.clen]; omega
      unfold iterDim at hl
      rw [this] at hl
      cases hl

/-- every inter-layer neighbour of an aspect has the weight of the coupling -/
theorem R_weight (h : p.P0) (hf : p.fic = true) {u : List α} (hu : u ∈ product p.slices) {a : Nat} (h1 : 1 ≤ a)
    {ns : List α} (hd : p.DimOk u a ns) {c : Coupling α W} (hcd : p.couplings[a - 1]? = some c) {w : W}
    (hw : c = .categorical w ∨ c = .ordinal w) {y : α} (hy : y ∈ ns) : p.R u (u.set a y) = w := by
  obtain ⟨d, rfl⟩ : ∃ d, a = d + 1 := ⟨a - 1, by omega⟩
  simp only [Nat.add_sub_cancel] at hcd
  obtain ⟨n1, n2, n3⟩ := (hd.mem y).1 hy
  have ha : d + 1 < u.length := by
    obtain ⟨S, hS, -⟩ := n1
    have := (List.getElem?_eq_some_iff.1 hS).1
    rw [h.slen] at this
    rw [((mem_product_iff h _).1 hu).1]; omega
  obtain ⟨x, hx⟩ : ∃ x, u[d + 1]? = some x := ⟨_, List.getElem?_eq_getElem ha⟩
  have hxy : x ≠ y := by rintro rfl; exact n2 hx
  rw [R_aligned h hf hu hx hxy hcd] at n3 ⊢
  rcases hw with rfl | rfl
  · rfl
  · unfold couplingRead at n3 ⊢
    cases hux : (IntNames.up x : Option α) with
    | none => simp [hux] at n3
    | some x' =>
      simp only [hux] at n3 ⊢
      by_cases c1 : x' = y
      · simp [c1]
      · simp only [c1, if_false] at n3 ⊢
        cases huy : (IntNames.up y : Option α) with
        | none => simp [huy] at n3
        | some y' =>
          simp only [huy] at n3 ⊢
          by_cases c2 : x = y'
          · simp [c2]
          · simp [c2] at n3

end aligned

/-! ### Networks that are not node-aligned: one aspect, categorical -/

theorem good_onecat [IntNames α] {p : MPlex α W} (h : p.PInv) (hf : p.fic = false) (hne : p.noEdge = 0)
    (hns : ∀ L a, p.lkA L [a] [a] = none) {w : W} (hw : w ≠ 0)
    (hc : p.couplings = [.categorical w]) {u : List α} (hu : u ∈ product p.slices) :
    p.Good u ∧
    ((∃ n x, u = [n, x] ∧ p.kid (.el x) n) →
      ∀ a, 1 ≤ a → ∀ l, p.iterDim u a = .ok l → ∀ dir, p.dimDegree u a dir = .ok (l.length : Int)) := by
  have hdec : ∀ n L, Decidable (p.reg n L) := fun n L => by unfold reg; infer_instance
  have hasp : p.aspects = 1 := by rw [← h.core.clen, hc]; rfl
  obtain ⟨hlen, hreg⟩ := (mem_product_iff h.core _).1 hu
  rw [hasp] at hlen
  match u, hlen with
  | [n, x], _ =>
    obtain ⟨cx, hcx⟩ := child_of_product h.core hu
    have hcx' : p.child? (.el x) = some cx := hcx
    have hc0 : p.couplings[0]? = some (.categorical w) := by rw [hc]; rfl
    have hR : ∀ y, x ≠ y → p.inSlice 1 y → (p.R [n, x] [n, y] = if n ∈ cx.slices.headD [] ∧ p.reg n (.el y) then w else 0) ∧
        (p.R [n, y] [n, x] = if n ∈ cx.slices.headD [] ∧ p.reg n (.el y) then w else 0) := by
      intro y hxy hy
      obtain ⟨cy, hcy⟩ := child_of_product h.core (set_mem_product h.core hu hy)
      have hcy' : p.child? (.el y) = some cy := hcy
      have k1 : p.kid (.el x) n ↔ n ∈ cx.slices.headD [] := by
        constructor
        · rintro ⟨c, h1, h2⟩; rw [hcx'] at h1; cases h1; exact h2
        · intro h1; exact ⟨cx, hcx', h1⟩
      have k2 : p.kid (.el y) n ↔ p.reg n (.el y) := h.regs hf _ _ (by rw [hcy']; rfl)
      by_cases hk : p.kid (.el x) n ∧ p.kid (.el y) n
      · have e1 := getLink_nonaligned_pos h.core hf (n := n) (s := [x]) (d := 0) (x := x) (y := y) rfl hxy hc0 hk.1 hk.2
        have e2 := getLink_nonaligned_pos h.core hf (n := n) (s := [y]) (d := 0) (x := y) (y := x) rfl hxy.symm hc0 hk.2 hk.1
        simp only [List.set_cons_zero] at e1 e2
        rw [R_eq, R_eq, e1, e2, if_pos ⟨k1.1 hk.1, k2.1 hk.2⟩]
        exact ⟨rfl, rfl⟩
      · have e1 := getLink_nonaligned_neg h.core hf (n := n) (s := [x]) (d := 0) (x := x) (y := y) rfl hxy hcx hcy hc0 hk
        have e2 := getLink_nonaligned_neg h.core hf (n := n) (s := [y]) (d := 0) (x := y) (y := x) rfl hxy.symm hcy hcx hc0
          (fun h => hk h.symm)
        simp only [List.set_cons_zero] at e1 e2
        rw [R_eq, R_eq, e1, e2, if_neg (fun h => hk ⟨k1.2 h.1, k2.2 h.2⟩)]
        exact ⟨hne, hne⟩
    -- the registered layers of the node
    have hls : ∀ ls, Dict.get p.nodeToLayers n = some ls → ∀ L, L ∈ ls ↔ p.reg n L := by
      intro ls hls L; simp [reg, hls]
    have hkey : ∀ L, p.reg n L → ∃ y, L = .el y ∧ p.inSlice 1 y := by
      intro L hL
      rcases (h.rkey n L hL).2 with h1 | h1
      · obtain ⟨s, h2, h3, h4⟩ := (h.core.akeys L).1 h1
        rw [hasp] at h3
        match s, h3 with
        | [y], _ => exact ⟨y, h2, h4 0 y rfl⟩
      · omega
    have hmem : ∀ y, (p.inSlice 1 y ∧ [n, x][1]? ≠ some y ∧ p.R [n, x] ([n, x].set 1 y) ≠ p.noEdge) ↔
        n ∈ cx.slices.headD [] ∧ y ≠ x ∧ p.reg n (.el y) := by
      intro y
      constructor
      · rintro ⟨h1, h2, h3⟩
        have hxy : x ≠ y := by simpa using h2
        have h4 : p.R [n, x] [n, y] ≠ p.noEdge := h3
        rw [(hR y hxy h1).1, hne] at h4
        by_cases hk : n ∈ cx.slices.headD [] ∧ p.reg n (.el y)
        · exact ⟨hk.1, hxy.symm, hk.2⟩
        · rw [if_neg hk] at h4; exact absurd rfl h4
      · rintro ⟨h1, h2, h3⟩
        obtain ⟨y', e, h4⟩ := hkey _ h3
        cases e
        refine ⟨h4, by simpa using fun e => h2 e.symm, ?_⟩
        change p.R [n, x] [n, y] ≠ _
        rw [(hR y h2.symm h4).1, if_pos ⟨h1, h3⟩, hne]; exact hw
    have iterEq : p.iterDim [n, x] 1 = if n ∈ cx.slices.headD [] then
        (match Dict.get p.nodeToLayers n with
          | none => .error .keyError
          | some ls => .ok ((ls.filter (· ≠ LKey.el x)).map fun L => n :: L.toList)) else .ok [] := by
      unfold iterDim
      simp only [Nat.sub_self, hc0, hf, Bool.false_eq_true, if_false, LKey.ofList, hcx']
      rfl
    -- when the node is on the layer
    have onlayer : n ∈ cx.slices.headD [] → ∃ ls, Dict.get p.nodeToLayers n = some ls ∧ LKey.el x ∈ ls := by
      intro hn
      have : p.reg n (.el x) := (h.regs hf _ _ (by rw [hcx']; rfl)).1 ⟨cx, hcx', hn⟩
      unfold reg at this
      cases hg : Dict.get p.nodeToLayers n with
      | none => rw [hg] at this; simp at this
      | some ls => rw [hg] at this; exact ⟨ls, rfl, this⟩
    have inj : ∀ ls, Dict.get p.nodeToLayers n = some ls → ∀ L ∈ ls, L.toList = [L.toList.headD x] ∧
        LKey.el (L.toList.headD x) = L := by
      intro ls hg L hL
      obtain ⟨y, rfl, -⟩ := hkey L ((hls ls hg L).1 hL)
      exact ⟨rfl, rfl⟩
    have dims1 : ∃ ns, p.DimOk [n, x] 1 ns := by
      by_cases hn : n ∈ cx.slices.headD []
      · obtain ⟨ls, hg, hx⟩ := onlayer hn
        have hnd : ls.Nodup := by have := h.core.rnodup n; rw [hg] at this; exact this
        refine ⟨(ls.filter (· ≠ LKey.el x)).map (fun L => L.toList.headD x), ?_, ?_, ?_⟩
        · rw [iterEq, if_pos hn, hg]
          simp only [List.map_map]
          congr 1
          refine List.map_congr_left fun L hL => ?_
          have := (inj ls hg L (List.mem_of_mem_filter hL)).1
          rw [this]; rfl
        · refine (hnd.filter _).map_on ?_
          intro L hL L' hL' e
          rw [← (inj ls hg L (List.mem_of_mem_filter hL)).2, ← (inj ls hg L' (List.mem_of_mem_filter hL')).2, e]
        · intro y
          rw [hmem y]
          simp only [hn, true_and, List.mem_map, List.mem_filter, decide_eq_true_eq]
          constructor
          · rintro ⟨L, ⟨h1, h2⟩, rfl⟩
            have e := (inj ls hg L h1).2
            refine ⟨fun e' => h2 (by rw [← e, e']), ?_⟩
            rw [e]; exact (hls ls hg L).1 h1
          · rintro ⟨h1, h2⟩
            refine ⟨.el y, ⟨(hls ls hg _).2 h2, by simpa using h1⟩, rfl⟩
      · refine ⟨[], ?_, by simp, ?_⟩
        · rw [iterEq, if_neg hn]; rfl
        · intro y; rw [hmem y]; simp only [hn, false_and, List.not_mem_nil]
    refine ⟨⟨h.core, hne, hns, hu, ?_, ?_⟩, ?_⟩
    · intro a h1 h2
      obtain rfl : a = 1 := by omega
      exact dims1
    · intro a h1 y hy hin
      have ha : a = 1 := by
        obtain ⟨S, hS, -⟩ := hin
        have := (List.getElem?_eq_some_iff.1 hS).1
        rw [h.core.slen, hasp] at this; omega
      subst ha
      have hxy : x ≠ y := by simpa using hy
      change p.R [n, x] [n, y] = p.R [n, y] [n, x]
      rw [(hR y hxy hin).1, (hR y hxy hin).2]
    · rintro ⟨n', x', e, hk⟩ a h1 l hl dir
      cases e
      have hn : n ∈ cx.slices.headD [] := by
        obtain ⟨c, h1, h2⟩ := hk
        rw [hcx'] at h1; cases h1; exact h2
      obtain ⟨ls, hg, hx⟩ := onlayer hn
      have hnd : ls.Nodup := by have := h.core.rnodup n; rw [hg] at this; exact this
      have ha : a = 1 := by
        by_contra ha
        have : p.couplings[a - 1]? = none := by
          apply List.getElem?_eq_none; rw [h.core.clen]; omega
        unfold iterDim at hl
        rw [this] at hl
        cases hl
      subst ha
      rw [iterEq, if_pos hn, hg] at hl
      simp only [Except.ok.injEq] at hl
      subst hl
      unfold dimDegree
      simp only [Nat.sub_self, hc0, hf, Bool.false_eq_true, if_false, hg, LKey.ofList, hx, if_true, hasp]
      congr 1
      have := List.length_erase_of_mem hx
      rw [hnd.erase_eq_filter] at this
      have hpos : 0 < ls.length := List.length_pos_of_mem hx
      have e : (ls.filter fun y => decide (y ≠ LKey.el x)) = ls.filter (fun y => y != LKey.el x) := by
        refine List.filter_congr fun y _ => ?_
        rw [bne, Bool.eq_iff_iff]; simp
      rw [List.length_map, e, this]; omega

/-! ### Sound views -/

section sound
variable [IntNames α] {p : MPlex α W}

omit [IntNames α] in
theorem mem_nodeLayers (h : p.P0) : ∃ l, p.nodeLayers = .ok l ∧ l.Nodup ∧ (∀ u ∈ l, u ∈ product p.slices) ∧
    ∀ i s, i :: s ∈ l ↔ i :: s ∈ product p.slices ∧ (p.fic = true ∨ p.kid (.ofList s) i) := by
  unfold nodeLayers
  cases hf : p.fic with
  | true =>
    simp only [if_true]
    exact ⟨_, rfl, nodup_product h.snodup, fun _ h => h, by simp⟩
  | false =>
    simp only [Bool.false_eq_true, if_false]
    -- layers
    have hlay : p.iterLayers = (product (p.slices.drop 1)).map LKey.ofList := by
      unfold iterLayers
      by_cases h2 : 1 < p.aspects
      · rw [if_pos h2]
        refine List.map_congr_left fun s hs => ?_
        have := length_of_mem_product hs
        rw [List.length_drop, h.slen] at this
        match s, this with
        | _ :: _ :: _, _ => rfl
        | [_], e => simp at e; omega
        | [], e => simp at e; omega
      · rw [if_neg h2]
        have h1 : p.aspects = 1 := by have := h.asp; omega
        rw [if_pos h1]
        have hl := h.slen
        rw [h1] at hl
        match hs : p.slices, hl with
        | [a, b], _ =>
          simp only [List.getD_eq_getElem?_getD, List.getElem?_cons_succ, List.getElem?_cons_zero, Option.getD_some,
            List.drop_succ_cons, List.drop_zero, product, List.map_cons, List.map_nil]
          clear hs
          induction b with
          | nil => rfl
          | cons x b ih => simpa [LKey.ofList] using ih
    have hsl : ∀ s, s ∈ product (p.slices.drop 1) ↔ s.length = p.aspects ∧ ∀ i x, s[i]? = some x → p.inSlice (i + 1) x := by
      intro s
      rw [mem_product, MNet.forall₂_iff_getElem, List.length_drop, h.slen, Nat.add_sub_cancel]
      refine and_congr_right fun hs => ?_
      constructor
      · intro h1 i x hx
        have hi : i + 1 < p.slices.length := by
          have := (List.getElem?_eq_some_iff.1 hx).1
          rw [h.slen]; omega
        refine ⟨p.slices[i + 1], by simp [hi], h1 i x _ hx (by rw [List.getElem?_drop, Nat.add_comm]; simp [hi])⟩
      · intro h1 i x S hx hS
        rw [List.getElem?_drop, Nat.add_comm] at hS
        obtain ⟨t, ht, hx'⟩ := h1 i x hx
        rw [hS] at ht; cases ht; exact hx'
    have hch : ∀ s ∈ product (p.slices.drop 1), ∃ c, p.child? (.ofList s) = some c := by
      intro s hs
      rw [← Option.isSome_iff_exists, h.akeys]
      exact ⟨s, rfl, ((hsl s).1 hs).1, ((hsl s).1 hs).2⟩
    set nodes : LKey α → List α := fun L => match p.child? L with | some c => c.slices.headD [] | none => []
    rw [View.collect_ok (g := fun L => (nodes L).map fun n => n :: L.toList)]
    · rw [hlay]
      refine ⟨_, rfl, ?_, ?_, ?_⟩
      · rw [List.flatMap_map, List.nodup_flatMap]
        constructor
        · intro s hs
          obtain ⟨c, hc⟩ := hch s hs
          have hk := h.kids _ _ hc
          refine List.Nodup.map (fun a b e => by simpa using e) ?_
          simp only [nodes, hc]
          have := MNet.headD_of_inv hk.inv.r hk.asp
          apply hk.inv.r.snodup
          rw [this]; simp
        · refine List.Pairwise.imp_of_mem ?_ (nodup_product fun s hs => h.snodup s (List.mem_of_mem_drop hs))
          intro s t _ _ hst
          rw [Function.onFun, List.disjoint_left]
          intro v hv hv'
          obtain ⟨n, -, rfl⟩ := List.mem_map.1 hv
          obtain ⟨m, -, e⟩ := List.mem_map.1 hv'
          rw [ofList_toList', ofList_toList'] at e
          simp only [List.cons.injEq] at e
          exact hst e.2.symm
      · intro u hu
        simp only [List.flatMap_map, List.mem_flatMap, List.mem_map] at hu
        obtain ⟨s, hs, n, hn, rfl⟩ := hu
        rw [ofList_toList']
        obtain ⟨c, hc⟩ := hch s hs
        simp only [nodes, hc] at hn
        rw [mem_product_iff h]
        have := (hsl s).1 hs
        refine ⟨by simp [this.1], ?_⟩
        intro a x hx
        cases a with
        | zero => simp at hx; subst hx; exact h.ksub _ _ ⟨c, hc, hn⟩
        | succ a => exact this.2 a x (by simpa using hx)
      · intro i s
        simp only [List.flatMap_map, List.mem_flatMap, List.mem_map, false_or, Bool.false_eq_true]
        constructor
        · rintro ⟨t, ht, n, hn, e⟩
          rw [ofList_toList'] at e
          obtain ⟨rfl, rfl⟩ : n = i ∧ t = s := by simpa using e
          obtain ⟨c, hc⟩ := hch t ht
          simp only [nodes, hc] at hn
          refine ⟨?_, ⟨c, hc, hn⟩⟩
          rw [mem_product_iff h]
          have := (hsl t).1 ht
          refine ⟨by simp [this.1], ?_⟩
          intro a x hx
          cases a with
          | zero => simp at hx; subst hx; exact h.ksub _ _ ⟨c, hc, hn⟩
          | succ a => exact this.2 a x (by simpa using hx)
        · rintro ⟨hu, c, hc, hn⟩
          rw [mem_product_iff h] at hu
          refine ⟨s, (hsl s).2 ⟨by simpa using hu.1, fun k x hx => hu.2 (k + 1) x (by simpa using hx)⟩, i, ?_, ?_⟩
          · simp only [nodes, hc]; exact hn
          · rw [ofList_toList']
    · intro L hL
      rw [hlay] at hL
      obtain ⟨s, hs, rfl⟩ := List.mem_map.1 hL
      obtain ⟨c, hc⟩ := hch s hs
      simp only [iterNodes, hf, Bool.false_eq_true, if_false, hc, nodes]

/-- An inter-layer link of a non-aligned network joins existing node-layers. -/
theorem kid_of_inter (h : p.P0) (hf : p.fic = false) {i : α} {s : List α} (hu : i :: s ∈ product p.slices) {d : Nat}
    {y : α} (hy : s[d]? ≠ some y) (hin : p.inSlice (d + 1) y)
    (hR : p.R (i :: s) (i :: s.set d y) ≠ p.noEdge) : p.kid (.ofList s) i ∧ p.kid (.ofList (s.set d y)) i := by
  classical
  obtain ⟨c1, hc1⟩ := child_of_product h hu
  obtain ⟨c2, hc2⟩ := child_of_product h (set_mem_product h hu hin)
  have hl := ((mem_product_iff h _).1 hu).1
  have hd : d < s.length := by
    obtain ⟨S, hS, -⟩ := hin
    have := (List.getElem?_eq_some_iff.1 hS).1
    rw [h.slen] at this
    simp at hl; omega
  obtain ⟨x, hx⟩ : ∃ x, s[d]? = some x := ⟨_, List.getElem?_eq_getElem hd⟩
  have hxy : x ≠ y := by rintro rfl; exact hy hx
  have hlt : d < p.couplings.length := by rw [h.clen]; simp at hl; omega
  obtain ⟨c, hc⟩ : ∃ c, p.couplings[d]? = some c := ⟨_, List.getElem?_eq_getElem hlt⟩
  rw [R_eq, getLink_nonaligned h hf hx hxy hc1 hc2 hc] at hR
  by_contra hk
  rw [if_neg hk] at hR
  exact hR rfl

theorem R_symm (h : ∀ u ∈ product p.slices, p.Good u) (hd : p.directed = false) {u v : List α}
    (hu : u ∈ product p.slices) (hv : v ∈ product p.slices) : p.R u v = p.R v u := by
  have g := h u hu
  have hl : u.length = v.length := by
    rw [((mem_product_iff g.inv _).1 hu).1, ((mem_product_iff g.inv _).1 hv).1]
  by_cases hdiff : ∃ a y, u[a]? ≠ some y ∧ a < u.length ∧ v = u.set a y
  · obtain ⟨a, y, h1, h2, rfl⟩ := hdiff
    have hin : p.inSlice a y := ((mem_product_iff g.inv _).1 hv).2 a y (by rw [List.getElem?_set_self h2])
    by_cases ha : a = 0
    · subst ha
      obtain ⟨i, s, rfl⟩ := product_cons g.inv hu
      obtain ⟨c, hc⟩ := child_of_product g.inv hu
      have hk := g.inv.kids _ _ hc
      change p.R (i :: s) (y :: s) = p.R (y :: s) (i :: s)
      rw [R_intra g.inv g.ne g.noself hc, R_intra g.inv g.ne g.noself hc]
      unfold MNet.reads
      rw [hk.inv.l.sym (by rw [hk.dir]; exact hd)]
    · exact g.sym a (by omega) y h1 hin
  · have e1 : p.R u v = p.noEdge := by
      by_contra hne
      exact hdiff (R_ne_differ hl hne)
    have e2 : p.R v u = p.noEdge := by
      by_contra hne
      obtain ⟨a, y, h2, h3, h4⟩ := R_ne_differ hl.symm hne
      apply hdiff
      have ha : a < v.length := h3
      refine ⟨a, v[a], ?_, by omega, ?_⟩
      · rw [h4, List.getElem?_set_self ha]
        intro e
        apply h2; rw [List.getElem?_eq_getElem ha, e]
      · rw [h4]; simp
    rw [e1, e2]

theorem sound (h : p.P0) (hg : ∀ u ∈ product p.slices, p.Good u)
    (hdeg : ∀ nls, p.nodeLayers = .ok nls → ∀ u ∈ nls, ∀ a, 1 ≤ a → ∀ l, p.iterDim u a = .ok l →
      ∀ dir, p.dimDegree u a dir = .ok (l.length : Int)) : p.view.Sound p.R := by
  obtain ⟨nls, n1, n2, n3, n4⟩ := mem_nodeLayers h
  refine ⟨h.slen, h.snodup, ?_, ?_, ?_, ?_, ?_, ?_, ?_, ?_, ?_⟩
  · intro u hu
    obtain ⟨l, h1, h2, h3, -⟩ := out_spec (hg u hu)
    exact ⟨l, h1, h2, h3⟩
  · intro u hu
    cases hd : p.directed with
    | true =>
      obtain ⟨l, h1, h2, h3, -⟩ := inn_spec (hg u hu)
      exact ⟨l, by simp [view, hd, h1], h2, h3⟩
    | false =>
      obtain ⟨l, h1, h2, h3, -⟩ := out_spec (hg u hu)
      refine ⟨l, by simp [view, hd, h1], h2, fun v => ?_⟩
      rw [h3]
      refine and_congr_right fun hv => ?_
      rw [R_symm hg hd hu hv]; rfl
  · intro u hu
    cases hd : p.directed with
    | true =>
      obtain ⟨l, h1, h2, h3, -⟩ := tot_spec (hg u hu)
      exact ⟨l, by simp [view, hd, h1], h2, h3⟩
    | false =>
      obtain ⟨l, h1, h2, h3, -⟩ := out_spec (hg u hu)
      refine ⟨l, by simp [view, hd, h1], h2, fun v => ?_⟩
      rw [h3]
      refine and_congr_right fun hv => ?_
      rw [R_symm hg hd hv hu, or_self]; rfl
  · rintro u hu v hv (rfl | hR)
    · have := getLink_self (p := p) u
      simp only [view]
      rw [this, R_eq, this]; rfl
    · exact getLink_of_R hR
  · intro hd u hu v hv; exact R_symm hg hd hu hv
  · intro nls' e u hu l hl
    have e' : p.nodeLayers = .ok nls' := e
    rw [n1] at e'; cases e'
    exact degOut_spec (hg u (n3 u hu)) (fun a h1 l h2 => hdeg _ n1 u hu a h1 l h2 _) hl
  · intro nls' e u hu l hl
    have e' : p.nodeLayers = .ok nls' := e
    rw [n1] at e'; cases e'
    cases hd : p.directed with
    | true =>
      simp only [view, hd, if_true] at hl ⊢
      exact degIn_spec (hg u (n3 u hu)) (fun a h1 l h2 => hdeg _ n1 u hu a h1 l h2 _) hl
    | false =>
      simp only [view, hd, Bool.false_eq_true, if_false] at hl ⊢
      exact degOut_spec (hg u (n3 u hu)) (fun a h1 l h2 => hdeg _ n1 u hu a h1 l h2 _) hl
  · intro hd nls' e u hu l hl
    have hd' : p.directed = false := hd
    have e' : p.nodeLayers = .ok nls' := e
    rw [n1] at e'; cases e'
    simp only [view, hd', Bool.false_eq_true, if_false] at hl ⊢
    exact degOut_spec (hg u (n3 u hu)) (fun a h1 l h2 => hdeg _ n1 u hu a h1 l h2 _) hl
  · refine ⟨nls, n1, n2, n3, ?_⟩
    intro u hu v hv hR
    have hR' : p.R u v ≠ p.noEdge := hR
    have hl : u.length = v.length := by
      rw [((mem_product_iff h _).1 hu).1, ((mem_product_iff h _).1 hv).1]
    obtain ⟨a, y, h1, h2, rfl⟩ := R_ne_differ hl hR'
    have hin : p.inSlice a y := ((mem_product_iff h _).1 hv).2 a y (by rw [List.getElem?_set_self h2])
    obtain ⟨i, s, rfl⟩ := product_cons h hu
    have g := hg _ hu
    cases a with
    | zero =>
      have := kid_of_R h g.ne g.noself hu hR'
      simp only [List.set_cons_zero] at hv ⊢
      rw [n4, n4]
      exact ⟨⟨hu, Or.inr this.1⟩, ⟨hv, Or.inr this.2⟩⟩
    | succ d =>
      simp only [List.set_cons_succ] at hv hR' ⊢
      rw [n4, n4]
      cases hf : p.fic with
      | true => exact ⟨⟨hu, Or.inl rfl⟩, ⟨hv, Or.inl rfl⟩⟩
      | false =>
        have := kid_of_inter h hf hu (by simpa using h1) hin hR'
        exact ⟨⟨hu, Or.inr this.1⟩, ⟨hv, Or.inr this.2⟩⟩

end sound

end MPlex

end Pymnet
