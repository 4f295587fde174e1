import Verif.Model.Modularity
import Verif.Proofs.Looks
import Verif.Proofs.Build
import Verif.Proofs.Subnet
import Mathlib.Tactic.FieldSimp
import Mathlib.Tactic.Ring

/-! The modularity view. -/

set_option linter.unusedSectionVars false
set_option linter.unusedSimpArgs false

namespace Pymnet

open Py

variable {α W : Type} [DecidableEq α] [DecidableEq W] {v : View α W} {str : List α → Option (Dims α) → Except Err W}

/-- What the view uses of its network. -/
structure ModSees (v : View α W) (str : List α → Option (Dims α) → Except Err W) (N : List α) (Ls : List (List α)) (R : List α → List α → W)
    (k : α → List α → W) : Prop where
  asp : v.aspects ≠ 0
  slices : v.slices = N :: Ls
  len : Ls.length = v.aspects
  nodup : ∀ s ∈ Ls, s.Nodup
  str_eq : ∀ i s, s ∈ product Ls → str (i :: s) (some (none :: s.map some)) = .ok (k i s)
  link : ∀ a ∈ product (N :: Ls), ∀ b ∈ product (N :: Ls), v.getLink (interleave a b) = .ok (R a b)

theorem View.vals?_val (l : List α) : View.vals? (l.map Idx.val) = some l := by
  induction l with
  | nil => rfl
  | cons x l ih => simp [View.vals?, ih]

theorem View.evenVals?_same (s : List α) : View.evenVals? (interleave (s.map Idx.val) (s.map Idx.val)) = some s := by
  induction s with
  | nil => rfl
  | cons x s ih => simp [interleave, View.evenVals?, ih]

theorem View.sliceDims_same (s : List α) : View.sliceDims (interleave (s.map Idx.val) (s.map Idx.val)) = some (s.map some) := by
  induction s with
  | nil => rfl
  | cons x s ih => simp [interleave, View.sliceDims, ih]

theorem interleave_length {β : Type} {u w : List β} (h : u.length = w.length) : (interleave u w).length = 2 * u.length := by
  induction u generalizing w with
  | nil => simp [interleave]
  | cons x u ih =>
    cases w with
    | nil => simp at h
    | cons y w => simp [interleave, ih (by simpa using h)]; omega

variable {N : List α} {Ls : List (List α)} {R : List α → List α → W} {k : α → List α → W}

theorem sliceStr_ok (h : ModSees v str N Ls R k) (i : α) {s : List α} (hs : s ∈ product Ls) : sliceStr v str i s = .ok (k i s) := by
  have hl : s.length = v.aspects := by rw [length_of_mem_product hs, h.len]
  have ha := h.asp
  unfold sliceStr
  rw [if_neg h.asp]
  have e1 : v.getItem ((i :: s).map .val) = .ok (.node (i :: s) none) := by
    unfold View.getItem
    simp only [List.length_map, List.length_cons, hl, if_true, View.vals?_val]
  have e2 : v.nodeGet (i :: s) (.colon :: s.map .val) = .ok (.node (i :: s) (some (none :: s.map some))) := by
    unfold View.nodeGet nodesToLink
    rw [if_pos (by simp)]
    have hi : interleave ((i :: s).map Idx.val) (Idx.colon :: s.map Idx.val) =
        Idx.val i :: Idx.colon :: interleave (s.map Idx.val) (s.map Idx.val) := rfl
    rw [hi]
    dsimp only
    unfold View.getItem
    have : (Idx.val i :: Idx.colon :: interleave (s.map Idx.val) (s.map Idx.val)).length = 2 * (v.aspects + 1) := by
      simp only [List.length_cons]
      rw [interleave_length rfl]
      simp [hl]
      omega
    dsimp only
    rw [if_neg (by omega), if_pos this]
    unfold View.getFull
    simp only [View.vals?, Option.map_none, View.evenVals?, View.sliceDims, View.evenVals?_same, View.sliceDims_same, Option.map_some]
  rw [e1]
  dsimp only
  rw [e2]
  exact h.str_eq i s hs

theorem View.nodeGet_link (h : v.getLink (interleave a b) = .ok x) (ha : a.length = v.aspects + 1) (hb : b.length = v.aspects + 1) :
    v.nodeGet a (b.map .val) = .ok (.weight x) := by
  unfold View.nodeGet nodesToLink
  rw [if_pos (by simp [ha, hb]), interleave_map]
  unfold View.getItem
  dsimp only
  have hl : (List.map Idx.val (interleave a b)).length = 2 * (v.aspects + 1) := by rw [List.length_map, interleave_length (by omega), ha]
  rw [if_neg (by omega), if_pos hl]
  unfold View.getFull
  rw [View.vals?_val]
  simp only [h]

theorem modPair_ok [Add W] (h : ModSees v str N Ls R k) (u : W) {a b : List α} (ha : a ∈ product (N :: Ls)) (hb : b ∈ product (N :: Ls)) :
    modPair v u (a, b) = .ok (u + R a b) := by
  have la : a.length = v.aspects + 1 := by rw [length_of_mem_product ha, List.length_cons, h.len]
  have lb : b.length = v.aspects + 1 := by rw [length_of_mem_product hb, List.length_cons, h.len]
  unfold modPair
  have e1 : v.getItem (a.map .val) = .ok (.node a none) := by
    unfold View.getItem
    simp only [List.length_map, la, if_true, View.vals?_val]
  dsimp only
  rw [e1]
  dsimp only
  rw [View.nodeGet_link (h.link a ha b hb) la lb]

variable [Field W]

theorem modNodes_ok (h : ModSees v str N Ls R k) {s : List α} (hs : s ∈ product Ls) (l : List α) (m : Dict (List α) W) (hm : Dict.get m s = none) :
    ∃ m', forE (modNode v str s) l m = .ok m' ∧ (l ≠ [] → Dict.get m' s = some ((l.map fun i => k i s).sum)) ∧
      (∀ t, t ≠ s → Dict.get m' t = Dict.get m t) := by
  obtain ⟨m', e, h1, h2, -⟩ := forE_ok (f := modNode v str s) (P := fun pre (m' : Dict (List α) W) => (pre ≠ [] → Dict.get m' s = some ((pre.map fun i => k i s).sum)) ∧
      (∀ t, t ≠ s → Dict.get m' t = Dict.get m t) ∧ (Dict.get m' s).getD 0 = (pre.map fun i => k i s).sum) (s := m) l
    ⟨fun h => absurd rfl h, fun _ _ => rfl, by simp [hm]⟩ (by
      rintro pre i post m1 - ⟨-, g2, g3⟩
      unfold modNode
      rw [sliceStr_ok h i hs]
      refine ⟨_, rfl, fun _ => ?_, fun t ht => ?_, ?_⟩
      · rw [Dict.get_set, if_pos rfl, g3]
        simp
      · rw [Dict.get_set, if_neg (Ne.symm ht), g2 t ht]
      · rw [Dict.get_set, if_pos rfl, g3]
        simp)
  exact ⟨m', e, h1, h2⟩

theorem modInit_ok (h : ModSees v str N Ls R k) (gamma : W)
    (hu : ((product (N :: Ls)).map fun a => ((product (N :: Ls)).map fun b => R a b).sum).sum ≠ 0) :
    ∃ m, modInit v str gamma =
        .ok ⟨v, str, gamma, m, ((product (N :: Ls)).map fun a => ((product (N :: Ls)).map fun b => R a b).sum).sum⟩ ∧
      ∀ s, Dict.get m s = if s ∈ product Ls then some ((N.map fun i => k i s).sum / 2) else none := by
  have hN : N ≠ [] := by
    rintro rfl
    simp [product] at hu
  have hnd := nodup_product h.nodup
  obtain ⟨m, e, hm⟩ := forE_ok (f := modSlice v str) (P := fun pre (m : Dict (List α) W) =>
      ∀ s, Dict.get m s = if s ∈ pre then some ((N.map fun i => k i s).sum / 2) else none) (s := ([] : Dict (List α) W)) (product Ls)
    (fun s => by simp [Dict.get]) (by
      rintro pre s post m hl hm
      have hs : s ∈ product Ls := by rw [hl]; simp
      have hnot : s ∉ pre := by
        rw [hl] at hnd
        intro hmem
        exact (List.nodup_append.1 hnd).2.2 s hmem s (by simp) rfl
      obtain ⟨m', e, g1, g2⟩ := modNodes_ok h hs N m (by rw [hm, if_neg hnot])
      unfold modSlice
      rw [h.slices, List.headD_cons, e]
      dsimp only
      rw [g1 hN]
      refine ⟨_, rfl, fun t => ?_⟩
      rw [Dict.get_set]
      by_cases ht : s = t
      · subst ht; rw [if_pos rfl, if_pos (by simp)]
      · rw [if_neg ht, g2 t (Ne.symm ht), hm]
        have : t ∈ pre ++ [s] ↔ t ∈ pre := by simp [Ne.symm ht]
        simp only [this])
  refine ⟨m, ?_, hm⟩
  unfold modInit
  rw [h.slices, List.drop_one, List.tail_cons, e]
  dsimp only
  have key : ∀ (l : List (List α × List α)) (u : W), (∀ p ∈ l, p.1 ∈ product (N :: Ls) ∧ p.2 ∈ product (N :: Ls)) →
      forE (modPair v) l u = .ok (u + (l.map fun p => R p.1 p.2).sum) := by
    intro l
    induction l with
    | nil => intro u _; simp [forE]
    | cons p l ih =>
      intro u hl
      simp only [forE]
      obtain ⟨h1, h2⟩ := hl p (by simp)
      rw [show p = (p.1, p.2) from rfl, modPair_ok h u h1 h2]
      dsimp only
      rw [ih _ fun q hq => hl q (by simp [hq])]
      simp [add_assoc]
  rw [key _ _ (by
    intro p hp
    obtain ⟨a, ha, hp⟩ := List.mem_flatMap.1 hp
    obtain ⟨b, hb, rfl⟩ := List.mem_map.1 hp
    exact ⟨ha, hb⟩)]
  dsimp only
  have hsum : ∀ A B : List (List α), ((A.flatMap fun a => B.map fun b => (a, b)).map fun p => R p.1 p.2).sum =
      (A.map fun a => (B.map fun b => R a b).sum).sum := by
    intro A B
    induction A with
    | nil => simp
    | cons a A ih => simp [ih, Function.comp_def]
  rw [hsum, zero_add, if_neg hu]

theorem modRead_ok [CharZero W] (h : ModSees v str N Ls R k) {gamma u : W} {m : Dict (List α) W}
    (hm : ∀ s, Dict.get m s = if s ∈ product Ls then some ((N.map fun i => k i s).sum / 2) else none) {a b item : List α}
    (had : Spec.Addresses v.aspects item a b) {x : W} (hlink : v.getLink (interleave a b) = .ok x) :
    (a.tail ≠ b.tail → (ModView.mk v str gamma m u).read item = .ok (.weight x)) ∧
    ∀ i j s, a = i :: s → b = j :: s → s ∈ product Ls → (ModView.mk v str gamma m u).read item =
      if (N.map fun i => k i s).sum = 0 then .error .zeroDivisionError
      else .ok (.weight (x - gamma * k i s * k j s / (N.map fun i => k i s).sum)) := by
  obtain ⟨la, lb⟩ : a.length = v.aspects + 1 ∧ b.length = v.aspects + 1 := ⟨had.1, had.2.1⟩
  have hne : a ≠ [] := by rintro rfl; simp at la
  obtain ⟨i0, sa, rfl⟩ := List.exists_cons_of_ne_nil hne
  have hne : b ≠ [] := by rintro rfl; simp at lb
  obtain ⟨j0, sb, rfl⟩ := List.exists_cons_of_ne_nil hne
  have lab : sa.length = sb.length := by simp only [List.length_cons] at la lb; omega
  have hrd : v.readItem (interleave (i0 :: sa) (j0 :: sb)) = .ok (.weight x) :=
    View.getItem_addresses (v := v) ⟨la, lb, Or.inl (interleave_eq_link _ _)⟩ hlink
  have hred : ∀ (r : Except Err W), (ModView.mk v str gamma m u).getLink (interleave (i0 :: sa) (j0 :: sb)) = r →
      (ModView.mk v str gamma m u).read item = r.map .weight := by
    intro r hr
    rw [← hr]
    exact View.readItem_addresses (v := { v with getLink := (ModView.mk v str gamma m u).getLink }) had
  have he : evens ((interleave (i0 :: sa) (j0 :: sb)).drop 2) = sa := by
    simp only [interleave, List.drop_succ_cons, List.drop_zero]
    exact evens_interleave lab
  have ho : odds ((interleave (i0 :: sa) (j0 :: sb)).drop 2) = sb := by
    simp only [interleave, List.drop_succ_cons, List.drop_zero]
    exact odds_interleave lab
  constructor
  · intro hab
    refine hred (.ok x) ?_
    unfold ModView.getLink
    rw [hrd]
    dsimp only
    rw [he, ho, if_neg (by simpa using hab)]
  · rintro i j s ea eb hs
    obtain ⟨rfl, rfl⟩ : i0 = i ∧ sa = s := List.cons.inj ea
    obtain ⟨rfl, rfl⟩ : j0 = j ∧ sb = sa := List.cons.inj eb
    have h2 : (2 : W) * ((N.map fun i => k i sb).sum / 2) = (N.map fun i => k i sb).sum := by field_simp
    rw [hred (if (N.map fun i => k i sb).sum = 0 then .error .zeroDivisionError
      else .ok (x - gamma * k i0 sb * k j0 sb / (N.map fun i => k i sb).sum)) ?_]
    · split <;> rfl
    · unfold ModView.getLink
      rw [hrd]
      dsimp only
      rw [he, ho, if_pos rfl]
      simp only [interleave]
      rw [sliceStr_ok h i0 hs, sliceStr_ok h j0 hs, hm, if_pos hs]
      simp only [h2]

end Pymnet
