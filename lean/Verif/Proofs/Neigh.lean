import Verif.Proofs.Item
import Mathlib.Data.Set.Card
import Mathlib.Algebra.BigOperators.Finprod

/-! Neighbour iteration, degrees and strengths. -/

set_option linter.unusedSectionVars false
set_option linter.unusedSimpArgs false

namespace Pymnet

open Py

variable {α W : Type} [DecidableEq α] [DecidableEq W]

theorem matchDims_iff {ds : Dims α} {n : List α} (hl : ds.length ≤ n.length) :
    matchDims ds n = true ↔ Spec.Matches ds n := by
  unfold Spec.Matches
  induction ds generalizing n with
  | nil => simp [matchDims]
  | cons d ds ih =>
    cases n with
    | nil => simp at hl
    | cons b n =>
      simp only [List.length_cons, Nat.add_le_add_iff_right] at hl
      cases d with
      | none =>
        simp only [matchDims, List.tail_cons]
        rw [ih hl]
        constructor
        · intro h i a hi
          cases i with
          | zero => simp at hi
          | succ i => simpa using h i a (by simpa using hi)
        · intro h i a hi
          simpa using h (i + 1) a (by simpa using hi)
      | some c =>
        simp only [matchDims, Bool.and_eq_true, decide_eq_true_eq]
        rw [ih hl]
        constructor
        · rintro ⟨rfl, h⟩ i a hi
          cases i with
          | zero => simpa using hi
          | succ i => simpa using h i a (by simpa using hi)
        · intro h
          refine ⟨?_, fun i a hi => ?_⟩
          · have := h 0 c (by simp); simpa using this
          · simpa using h (i + 1) a (by simpa using hi)

/-- the restriction `None` restricts nothing -/
def dimsOk (ds : Option (Dims α)) (n : List α) : Prop :=
  match ds with
  | none => True
  | some ds => matchDims ds n = true

namespace MNet

theorem iterDict_nodup {d : Dict (List α) (Dict (List α) W)} (wf : WF2 d) (a : List α)
    (ds : Option (Dims α)) : (iterDict d a ds).Nodup := by
  unfold iterDict
  cases h : Dict.get d a with
  | none => simp
  | some i =>
    have := wf.inner a i h
    cases ds with
    | none => exact this
    | some ds => exact this.filter _

theorem mem_iterDict {d : Dict (List α) (Dict (List α) W)} (a b : List α)
    (ds : Option (Dims α)) : b ∈ iterDict d a ds ↔ (get2 d a b).isSome = true ∧ dimsOk ds b := by
  unfold iterDict get2 dimsOk
  cases h : Dict.get d a with
  | none => simp
  | some i =>
    cases ds with
    | none => simp [Dict.mem_keys_iff_has, Dict.has]
    | some ds => simp [Dict.mem_keys_iff_has, Dict.has]

theorem degDict_eq (d : Dict (List α) (Dict (List α) W)) (a : List α) (ds : Option (Dims α)) :
    degDict d a ds = (iterDict d a ds).length := by
  unfold degDict
  cases ds with
  | some ds => rfl
  | none =>
    simp only [iterDict]
    cases h : Dict.get d a with
    | none => rfl
    | some i => simp [Dict.length_keys]

theorem iterOut_nodup {m : MNet α W} (h : m.LInv) (a : List α) (ds : Option (Dims α)) :
    (m.iterOut a ds).Nodup := iterDict_nodup h.wf a ds

theorem mem_iterOut {m : MNet α W} (a b : List α) (ds : Option (Dims α)) :
    b ∈ m.iterOut a ds ↔ (m.lk a b).isSome = true ∧ dimsOk ds b := mem_iterDict a b ds

theorem iterIn_nodup {m : MNet α W} (h : m.LInv) (a : List α) (ds : Option (Dims α)) :
    (m.iterIn a ds).Nodup := by
  unfold iterIn iterInDir
  split
  · exact iterDict_nodup h.rwf a ds
  · exact iterDict_nodup h.wf a ds

theorem mem_iterIn {m : MNet α W} (h : m.LInv) (a b : List α) (ds : Option (Dims α)) :
    b ∈ m.iterIn a ds ↔ (m.lk b a).isSome = true ∧ dimsOk ds b := by
  unfold iterIn iterInDir
  split
  · rename_i hd
    rw [mem_iterDict]
    have := h.mirror hd b a
    unfold rlk at this
    rw [this]
  · rename_i hd
    rw [mem_iterOut, h.sym (by simpa using hd)]

theorem iterTotal_nodup {m : MNet α W} (h : m.LInv) (a : List α) (ds : Option (Dims α)) :
    (m.iterTotal a ds).Nodup := by
  unfold iterTotal iterTotalDir
  split
  · rw [List.nodup_append]
    refine ⟨iterOut_nodup h a ds, (iterIn_nodup h a ds).filter _, ?_⟩
    rintro x hx y hy rfl
    simp at hy
    exact hy.2 hx
  · exact iterOut_nodup h a ds

theorem mem_iterTotal {m : MNet α W} (h : m.LInv) (a b : List α) (ds : Option (Dims α)) :
    b ∈ m.iterTotal a ds ↔
      ((m.lk a b).isSome = true ∨ (m.lk b a).isSome = true) ∧ dimsOk ds b := by
  unfold iterTotal iterTotalDir
  split
  · simp only [List.mem_append, List.mem_filter, decide_eq_true_eq, mem_iterOut, mem_iterIn h]
    tauto
  · rename_i hd
    rw [mem_iterOut, h.sym (by simpa using hd) b a, or_self]

theorem reads_ne_noEdge {m : MNet α W} (h : m.LInv) (u v : List α) :
    m.reads u v ≠ m.noEdge ↔ (m.lk u v).isSome = true := by
  rw [Ne, reads_eq_noEdge h, Option.isSome_iff_ne_none]

theorem ncard_of_list {β : Type} [DecidableEq β] {l : List β} (hn : l.Nodup) {p : β → Prop}
    (hp : ∀ x, x ∈ l ↔ p x) : {x | p x}.ncard = l.length := by
  have : {x | p x} = (l.toFinset : Set β) := by ext x; simp [hp]
  rw [this, Set.ncard_coe_finset, List.toFinset_card_of_nodup hn]

theorem finsum_of_list {β M : Type} [DecidableEq β] [AddCommMonoid M] {l : List β} (hn : l.Nodup)
    {p : β → Prop} (hp : ∀ x, x ∈ l ↔ p x) (f : β → M) :
    ∑ᶠ x ∈ {x | p x}, f x = (l.map f).sum := by
  have : {x | p x} = (l.toFinset : Set β) := by ext x; simp [hp]
  rw [this, finsum_mem_coe_finset, List.sum_toFinset _ hn]

theorem sumLinks_spec [AddCommMonoid W] (m : MNet α W) (mk : List α → Except Err (List α))
    (f : List α → W) (l : List (List α)) (acc : W)
    (h : ∀ x ∈ l, ∃ link, mk x = .ok link ∧ m.getLink link = .ok (f x)) :
    m.sumLinks mk l acc = .ok (acc + (l.map f).sum) := by
  induction l generalizing acc with
  | nil => simp [sumLinks]
  | cons x l ih =>
    obtain ⟨link, h1, h2⟩ := h x (by simp)
    simp only [sumLinks, h1, h2]
    rw [ih _ (fun y hy => h y (by simp [hy]))]
    simp [add_assoc]

theorem lk_length {m : MNet α W} (h : m.Inv) {a b : List α} (hl : (m.lk a b).isSome = true) :
    a.length = m.aspects + 1 ∧ b.length = m.aspects + 1 := by
  obtain ⟨w, hw⟩ := Option.isSome_iff_exists.1 hl
  exact ⟨(h.reg a b w hw).1.1, (h.reg a b w hw).2.1⟩

theorem strOut_spec [AddCommMonoid W] {m : MNet α W} (h : m.Inv) (a : List α) (ds : Option (Dims α)) :
    m.strOut a ds = .ok (((m.iterOut a ds).map fun b => m.reads a b).sum) := by
  unfold strOut
  rw [sumLinks_spec m _ (fun b => m.reads a b), zero_add]
  intro b hb
  rw [mem_iterOut] at hb
  obtain ⟨h1, h2⟩ := lk_length h hb.1
  refine ⟨interleave a b, by simp [nodesToLink, h1, h2], getLink_interleave m (by omega) ?_⟩
  rintro rfl; simp at h1

theorem strIn_spec [AddCommMonoid W] {m : MNet α W} (h : m.Inv) (a : List α) (ds : Option (Dims α)) :
    m.strIn a ds = .ok (((m.iterIn a ds).map fun b => m.reads b a).sum) := by
  unfold strIn
  split
  · unfold strInDir
    rw [sumLinks_spec m _ (fun b => m.reads b a), zero_add]
    intro b hb
    rw [mem_iterIn h.l] at hb
    obtain ⟨h1, h2⟩ := lk_length h hb.1
    refine ⟨interleave b a, by simp [nodesToLink, h1, h2], getLink_interleave m (by omega) ?_⟩
    rintro rfl; simp at h1
  · rename_i hd
    rw [strOut_spec h]
    have : m.iterIn a ds = m.iterOut a ds := by unfold iterIn; rw [if_neg hd]
    rw [this]
    congr 3
    funext b
    unfold reads
    rw [h.l.sym (by simpa using hd)]

end MNet

end Pymnet
