import Verif.Proofs.Eq

/-! Registries over histories; idempotence of `add_node` and `add_layer`. -/

set_option linter.unusedSectionVars false
set_option linter.unusedSimpArgs false

namespace Pymnet

open Py

variable {α W : Type} [DecidableEq α] [DecidableEq W]

theorem dict_set_same {κ ν : Type} [DecidableEq κ] {d : Dict κ ν} {k : κ} {v : ν}
    (h : Dict.get d k = some v) : Dict.set d k v = d := by
  induction d with
  | nil => simp at h
  | cons p t ih =>
    obtain ⟨k', v'⟩ := p
    rw [Dict.get_cons] at h
    simp only [Dict.set]
    split
    · rename_i hk; rw [if_pos hk] at h; cases h; rw [hk]
    · rename_i hk; rw [if_neg hk] at h; rw [ih h]

namespace MNet

theorem addresses_fwd {aspects : Nat} {item u v : List α} (ha : Spec.Addresses aspects item u v)
    {P : List α → List α → Prop} : (∃ x y, Spec.Addresses aspects item x y ∧ P x y) ↔ P u v := by
  constructor
  · rintro ⟨x, y, h1, h2⟩
    obtain ⟨rfl, rfl⟩ := addresses_unique ha h1
    exact h2
  · intro h; exact ⟨u, v, ha, h⟩

theorem head?_getElem (l : List α) : l.head? = l[0]? := by cases l <;> rfl

theorem step_inSlice0 {m : MNet α W} (h : m.Inv) (op : Op α W) (x : α) :
    (m.step op).1.inSlice 0 x ↔ m.inSlice 0 x ∨ Spec.NamesNode m.aspects x op := by
  cases op with
  | addNode n l =>
    change (m.addNode n l).1.inSlice 0 x ↔ _
    rw [(addNode_spec m n l h.r.slen).2.2.2.1]
    simp [Spec.NamesNode, eq_comm]
  | addLayer l a =>
    change (m.addLayer l a).1.inSlice 0 x ↔ _
    rw [addLayer_inSlice h.r]
    simp only [Spec.NamesNode]
    constructor
    · rintro (h1 | ⟨h1, rfl, -⟩)
      · exact Or.inl h1
      · exact Or.inr ⟨h1.symm, rfl⟩
    · rintro (h1 | ⟨rfl, rfl⟩)
      · exact Or.inl h1
      · exact Or.inr ⟨rfl, rfl, by omega⟩
  | setItem i w =>
    change (m.setItem i w).1.inSlice 0 x ↔ _
    by_cases hl : i.length = 2 * (m.aspects + 1) ∨ i.length = m.aspects + 2
    · obtain ⟨u, v, ha⟩ := exists_addresses hl
      obtain ⟨-, -, -, -, -, -, -, -, h9, -⟩ := setItem_spec h ha w
      rw [h9, Spec.NamesNode, addresses_fwd ha, head?_getElem, head?_getElem]
    · rw [setItem_arity m hl]
      simp only [Spec.NamesNode]
      constructor
      · exact Or.inl
      · rintro (h1 | ⟨u, v, ha, -⟩)
        · exact h1
        · exact absurd (addresses_length ha) hl

theorem step_inSlice {m : MNet α W} (h : m.Inv) (op : Op α W) (b : Nat) (hb : 1 ≤ b) (x : α) :
    (m.step op).1.inSlice b x ↔ m.inSlice b x ∨ Spec.NamesLayer m.aspects m.fic b x op := by
  cases op with
  | addNode n l =>
    change (m.addNode n l).1.inSlice b x ↔ _
    rw [(addNode_spec m n l h.r.slen).2.2.2.1]
    refine or_congr_right ?_
    cases l with
    | none => simp [Spec.NamesLayer]; omega
    | some L =>
      cases L with
      | el a =>
        simp only [Spec.NamesLayer, Option.some.injEq, exists_eq_left', Considers, LKey.toList]
        constructor
        · rintro (⟨h1, -⟩ | ⟨⟨h1, h2⟩, h3, h4, h5⟩)
          · omega
          · have e : b = 1 := by omega
            subst e
            exact ⟨h1, h2, rfl, by simpa using h5⟩
        · rintro ⟨h1, h2, rfl, rfl⟩
          exact Or.inr ⟨⟨h1, h2⟩, hb, by omega, by simp⟩
      | tup l =>
        simp only [Spec.NamesLayer, Option.some.injEq, exists_eq_left', Considers, LKey.toList]
        constructor
        · rintro (⟨h1, -⟩ | ⟨⟨h1, h2⟩, h3, h4, h5⟩)
          · omega
          · exact ⟨h1, h2, h4, h5⟩
        · rintro ⟨h1, h2, h3, h4⟩
          exact Or.inr ⟨⟨h1, h2⟩, hb, h3, h4⟩
  | addLayer l a =>
    change (m.addLayer l a).1.inSlice b x ↔ _
    rw [addLayer_inSlice h.r]
    simp only [Spec.NamesLayer]
    constructor
    · rintro (h1 | ⟨rfl, rfl, h2⟩)
      · exact Or.inl h1
      · exact Or.inr ⟨h2, rfl, rfl⟩
    · rintro (h1 | ⟨h2, rfl, rfl⟩)
      · exact Or.inl h1
      · exact Or.inr ⟨rfl, rfl, h2⟩
  | setItem i w =>
    change (m.setItem i w).1.inSlice b x ↔ _
    by_cases hl : i.length = 2 * (m.aspects + 1) ∨ i.length = m.aspects + 2
    · obtain ⟨u, v, ha⟩ := exists_addresses hl
      obtain ⟨-, -, -, -, -, -, -, -, h9, -⟩ := setItem_spec h ha w
      rw [h9, Spec.NamesLayer, addresses_fwd ha]
    · rw [setItem_arity m hl]
      simp only [Spec.NamesLayer]
      constructor
      · exact Or.inl
      · rintro (h1 | ⟨u, v, ha, -⟩)
        · exact h1
        · exact absurd (addresses_length ha) hl

/-- the node-layer `n :: t` of full length is recorded -/
theorem step_onLayer {m : MNet α W} (h : m.Inv) (hf : m.fic = false) (op : Op α W) (n : α) (t : List α)
    (ht : t.length = m.aspects) :
    (m.step op).1.onLayer n (.ofList t) ↔
      m.onLayer n (.ofList t) ∨ Spec.NamesNodeLayer m.aspects (n :: t) op := by
  have h1 : 1 ≤ m.aspects := by
    rcases Nat.eq_zero_or_pos m.aspects with h0 | h0
    · have := h.r.fic0 h0; rw [hf] at this; cases this
    · exact h0
  cases op with
  | addNode x l =>
    change (m.addNode x l).1.onLayer n _ ↔ _
    rw [addNode_onLayer h.r.slen]
    refine or_congr_right ?_
    cases l with
    | none => simp [Spec.NamesNodeLayer]
    | some L =>
      cases L with
      | el a =>
        simp only [Spec.NamesNodeLayer, Option.some.injEq]
        constructor
        · rintro ⟨rfl, h2, h3⟩
          rw [← h2] at h3
          have := congrArg LKey.toList h2
          rw [ofList_toList] at this
          exact ⟨h3.2, by rw [← this]; rfl⟩
        · rintro ⟨h2, h3⟩
          simp only [List.cons.injEq] at h3
          obtain ⟨rfl, rfl⟩ := h3
          exact ⟨rfl, rfl, hf, h2⟩
      | tup l =>
        simp only [Spec.NamesNodeLayer, Option.some.injEq]
        constructor
        · rintro ⟨rfl, h2, h3⟩
          rw [← h2] at h3
          have := congrArg LKey.toList h2
          rw [ofList_toList] at this
          simp only [LKey.toList] at this
          subst this
          exact ⟨h3.2.1, ht, rfl⟩
        · rintro ⟨h2, h3, h4⟩
          simp only [List.cons.injEq] at h4
          obtain ⟨rfl, rfl⟩ := h4
          match t, h3 with
          | [], e => simp at e; omega
          | [a], e => simp at e; omega
          | a :: b :: t', e => exact ⟨rfl, rfl, hf, h2, by omega⟩
  | addLayer l a =>
    change (m.addLayer l a).1.onLayer n _ ↔ _
    rw [addLayer_onLayer h.r]
    simp [Spec.NamesNodeLayer]
  | setItem i w =>
    change (m.setItem i w).1.onLayer n _ ↔ _
    by_cases hl : i.length = 2 * (m.aspects + 1) ∨ i.length = m.aspects + 2
    · obtain ⟨u, v, ha⟩ := exists_addresses hl
      obtain ⟨-, -, -, -, -, -, -, -, -, h10⟩ := setItem_spec h ha w
      rw [h10, Spec.NamesNodeLayer, addresses_fwd ha]
      refine or_congr_right ?_
      constructor
      · rintro ⟨-, s, e, h2⟩
        rw [ofList_inj e]
        exact h2.imp Eq.symm Eq.symm
      · intro h2; exact ⟨hf, t, rfl, h2.imp Eq.symm Eq.symm⟩
    · rw [setItem_arity m hl]
      simp only [Spec.NamesNodeLayer]
      constructor
      · exact Or.inl
      · rintro (h1 | ⟨u, v, ha, -⟩)
        · exact h1
        · exact absurd (addresses_length ha) hl

theorem exists_mem_snoc {β : Type} {l : List β} {x : β} {P : β → Prop} :
    (∃ y ∈ l ++ [x], P y) ↔ (∃ y ∈ l, P y) ∨ P x := by
  simp only [List.mem_append, List.mem_singleton]
  constructor
  · rintro ⟨y, h1 | rfl, h2⟩
    · exact Or.inl ⟨y, h1, h2⟩
    · exact Or.inr h2
  · rintro (⟨y, h1, h2⟩ | h)
    · exact ⟨y, Or.inl h1, h2⟩
    · exact ⟨x, Or.inr rfl, h⟩

theorem init_inSlice (aspects : Nat) (noEdge : W) (directed fic : Bool) (b : Nat) (x : α) :
    ¬ (init aspects noEdge directed fic : MNet α W).inSlice b x := by
  rintro ⟨s, hs, hx⟩
  simp only [init, List.getElem?_replicate] at hs
  split at hs <;> simp at hs
  subst hs; simp at hx

theorem run_inSlice0 (aspects : Nat) (noEdge : W) (directed fic : Bool) (ops : List (Op α W)) (x : α) :
    ((init aspects noEdge directed fic).run ops).inSlice 0 x ↔ ∃ op ∈ ops, Spec.NamesNode aspects x op := by
  induction ops using List.reverseRecOn with
  | nil => simpa [run] using init_inSlice aspects noEdge directed fic 0 x
  | append_singleton ops op ih =>
    obtain ⟨h1, -⟩ := run_params (init_inv (α := α) aspects noEdge directed fic) ops
    rw [run_snoc, step_inSlice0 (run_inv (init_inv ..) ops), ih, h1, exists_mem_snoc]; rfl

theorem run_inSlice (aspects : Nat) (noEdge : W) (directed fic : Bool) (ops : List (Op α W))
    (b : Nat) (hb : 1 ≤ b) (x : α) :
    ((init aspects noEdge directed fic).run ops).inSlice b x ↔
      ∃ op ∈ ops, Spec.NamesLayer aspects (aspects = 0 || fic) b x op := by
  induction ops using List.reverseRecOn with
  | nil => simpa [run] using init_inSlice aspects noEdge directed fic b x
  | append_singleton ops op ih =>
    obtain ⟨h1, -, -, h4⟩ := run_params (init_inv (α := α) aspects noEdge directed fic) ops
    rw [run_snoc, step_inSlice (run_inv (init_inv ..) ops) _ b hb, ih, h1, h4, exists_mem_snoc]
    have : (init aspects noEdge directed fic : MNet α W).fic = (aspects = 0 || fic) := by
      simp only [init]; split <;> simp_all
    rw [this]; rfl

theorem run_onLayer (aspects : Nat) (noEdge : W) (directed : Bool) (ha : 1 ≤ aspects)
    (ops : List (Op α W)) (n : α) (t : List α) (ht : t.length = aspects) :
    ((init aspects noEdge directed false).run ops).onLayer n (.ofList t) ↔
      ∃ op ∈ ops, Spec.NamesNodeLayer aspects (n :: t) op := by
  induction ops using List.reverseRecOn with
  | nil => simp [run, init, onLayer]
  | append_singleton ops op ih =>
    obtain ⟨h1, -, -, h4⟩ := run_params (init_inv (α := α) aspects noEdge directed false) ops
    have hf : ((init aspects noEdge directed false).run ops).fic = false := by
      rw [h4]; simp [init]; omega
    have hasp : ((init aspects noEdge directed false).run ops).aspects = aspects := h1
    rw [run_snoc, step_onLayer (run_inv (init_inv ..) ops) hf _ _ _ (by rw [hasp, ht]), ih, hasp,
      exists_mem_snoc]

/-! ### Idempotence -/

theorem modify_self {β : Type} (l : List β) (i : Nat) (f : β → β) (h : ∀ x, l[i]? = some x → f x = x) :
    l.modify i f = l := by
  apply List.ext_getElem?
  intro j
  rw [List.getElem?_modify]
  split
  · rename_i e; subst e
    cases hx : l[i]? with
    | none => rfl
    | some x => simp [h x hx]
  · simp

theorem sliceAdd_again {m : MNet α W} {a : Nat} {x : α} (h : m.inSlice a x ∨ m.slices.length ≤ a) :
    (m.sliceAdd a x).1 = m := by
  unfold sliceAdd
  split
  · rename_i ha
    rcases h with ⟨s, hs, hx⟩ | h
    · simp only
      rw [modify_self]
      intro y hy
      rw [hs] at hy; cases hy
      exact sadd_of_mem hx
    · omega
  · rfl

theorem addElemLayers_again {m : MNet α W} (l : List α) (a : Nat)
    (h : ∀ (i : Nat) x, l[i]? = some x → a + i < m.slices.length → m.inSlice (a + i) x) :
    (m.addElemLayers l a).1 = m := by
  induction l generalizing a with
  | nil => rfl
  | cons x l ih =>
    unfold addElemLayers
    split
    · rfl
    · rename_i s hs
      have hlt := (List.getElem?_eq_some_iff.1 hs).1
      obtain ⟨s', hs', hx⟩ := h 0 x (by simp) (by simpa using hlt)
      rw [Nat.add_zero, hs] at hs'; cases hs'
      rw [if_pos hx]
      refine ih (a + 1) (fun i y hy hlt' => ?_)
      have := h (i + 1) y (by simpa using hy) (by omega)
      rwa [show a + 1 + i = a + (i + 1) by omega]

theorem addNodeToLayer_again {m : MNet α W} {n : α} {L : LKey α} (h : m.RInv) (ho : m.onLayer n L) :
    m.addNodeToLayer n L = m := by
  unfold addNodeToLayer
  have h1 : Dict.set m.nodeToLayers n (sadd ((Dict.get m.nodeToLayers n).getD []) L) = m.nodeToLayers := by
    unfold onLayer at ho
    rw [sadd_of_mem ho]
    cases hg : Dict.get m.nodeToLayers n with
    | none => rw [hg] at ho; simp at ho
    | some s => exact dict_set_same hg
  have ho' := (h.n2l n L).1 ho
  have h2 : Dict.set m.layerToNodes L (sadd ((Dict.get m.layerToNodes L).getD []) n) = m.layerToNodes := by
    rw [sadd_of_mem ho']
    cases hg : Dict.get m.layerToNodes L with
    | none => rw [hg] at ho'; simp at ho'
    | some s => exact dict_set_same hg
  rw [h1, h2]

theorem addNode_again {m : MNet α W} (h : m.Inv) (n : α) (l : Option (LKey α)) :
    ((m.addNode n l).1.addNode n l).1 = (m.addNode n l).1 := by
  have hi := addNode_rinv h.r n l
  obtain ⟨h1, -, -, h4, -, -⟩ := addNode_spec m n l h.r.slen
  have h5 := addNode_onLayer h.r.slen n l
  obtain ⟨f1, -, -, f4, -⟩ := h1.fields
  set m' := (m.addNode n l).1 with hm'
  have hs : m'.inSlice 0 n := (h4 0 n).2 (Or.inr (Or.inl ⟨rfl, rfl⟩))
  have e0 : m'.sliceAdd 0 n = (m', none) := by
    refine Prod.ext (sliceAdd_again (Or.inl hs)) ?_
    rw [sliceAdd_err, if_pos]
    rw [hi.slen]; omega
  unfold addNode
  rw [e0, Outcome.andThen_ok]
  cases l with
  | none => rfl
  | some L =>
    simp only
    cases hf : m'.fic with
    | true => simp
    | false =>
      simp only [Bool.false_eq_true, if_false]
      have elem : m.Considers L → ∀ (i : Nat) x, L.toList[i]? = some x → 1 + i < m'.slices.length →
          m'.inSlice (1 + i) x := by
        intro hc i x hx hlt
        refine (h4 _ _).2 (Or.inr (Or.inr ⟨L, rfl, hc, by omega, ?_, ?_⟩))
        · rw [hi.slen, f1] at hlt; omega
        · rw [Nat.add_sub_cancel_left]; exact hx
      have fin : ∀ l', m.Considers L → l' = L.toList → (m.Accepts L ∨ m.aspects < l'.length) →
          ((m'.addElemLayers l' 1).andThen fun m => (m.addNodeToLayer n L, none)).1 = m' := by
        rintro l' hc rfl hacc
        have e1 := addElemLayers_again (m := m') L.toList 1 (elem hc)
        cases he : (m'.addElemLayers L.toList 1).2 with
        | some x =>
          have : m'.addElemLayers L.toList 1 = (m', some x) := Prod.ext e1 he
          rw [this]; rfl
        | none =>
          have : m'.addElemLayers L.toList 1 = (m', none) := Prod.ext e1 he
          rw [this, Outcome.andThen_ok]
          rcases hacc with hacc | hlong
          · exact addNodeToLayer_again hi ((h5 n L).2 (Or.inr ⟨rfl, rfl, hacc⟩))
          · -- too long a tuple: the loop raises
            exfalso
            have := (addElemLayers_spec L.toList m' 1).2.2.2.2.2.2.1 he
            rw [hi.slen, f1] at this
            rcases this with this | this
            · rw [this] at hlong; simp at hlong
            · omega
      cases L with
      | el a =>
        simp only
        split
        · rename_i h1'
          have hacc : m.Accepts (.el a) := ⟨by rw [← f4, hf], by rw [← f1, h1']⟩
          exact fin [a] hacc rfl (Or.inl hacc)
        · rfl
      | tup t =>
        simp only
        split
        · rename_i h2
          have hc : m.Considers (.tup t) := ⟨by rw [← f4, hf], by rw [← f1]; exact h2⟩
          refine fin t hc rfl ?_
          by_cases hl : t.length ≤ m.aspects
          · exact Or.inl ⟨hc.1, hc.2, hl⟩
          · exact Or.inr (by omega)
        · rfl

theorem addLayer_again {m : MNet α W} (h : m.Inv) (x : α) (a : Nat) :
    ((m.addLayer x a).1.addLayer x a).1 = (m.addLayer x a).1 := by
  by_cases h0 : a = 0
  · subst h0; simpa [addLayer] using addNode_again h x none
  · have : ∀ m' : MNet α W, m'.addLayer x a = m'.sliceAdd a x := by
      intro m'; unfold addLayer; rw [if_neg h0]
    rw [this, this]
    apply sliceAdd_again
    rw [sliceAdd_inSlice, sliceAdd_length]
    by_cases hl : m.slices.length ≤ a
    · exact Or.inr hl
    · exact Or.inl (Or.inr ⟨rfl, rfl, by omega⟩)

end MNet

end Pymnet
