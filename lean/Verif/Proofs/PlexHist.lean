import Verif.Spec.Plex
import Verif.Proofs.PlexCoup
import Verif.Proofs.History

set_option linter.unusedSectionVars false
set_option linter.unusedSimpArgs false
set_option linter.unnecessarySimpa false

namespace Pymnet

open Py

namespace MPlex

variable {α W : Type} [DecidableEq α] [DecidableEq W] [Zero W]

/-- the parameters no call changes -/
def SameP (p q : MPlex α W) : Prop :=
  q.aspects = p.aspects ∧ q.directed = p.directed ∧ q.noEdge = p.noEdge ∧ q.fic = p.fic ∧ q.couplings = p.couplings

theorem addElem_params {p : MPlex α W} (h : p.PInv) (x : α) {a : Nat} (ha : 1 ≤ a) :
    (p.addLayer x a).1.PInv ∧ ∃ dS, Eff p (p.addLayer x a).1 dS (fun _ _ => False) (fun _ _ => False) ∧
      ∀ b y, 1 ≤ b → (dS b y ↔ b ≤ p.aspects ∧ b = a ∧ y = x) ∧ ¬ dS 0 y := by
  by_cases h2 : a ≤ p.aspects
  · obtain ⟨e1, -, e3⟩ := addLayer_pos h x ha h2
    refine ⟨e1, _, e3, fun b y hb => ⟨⟨fun ⟨h3, h4⟩ => ⟨by omega, h3, h4⟩, fun h => h.2⟩, ?_⟩⟩
    rintro ⟨h3, -⟩; omega
  · obtain ⟨e1, e2, e3, e4⟩ := addElem_spec h.core x ha
    have : (p.addLayer x a).1 = p := by
      unfold addLayer; rw [if_neg (by omega), e4 h2]
    rw [this]
    refine ⟨h, _, Eff.refl p, fun b y hb => ⟨⟨fun h => h.elim, ?_⟩, fun h => h⟩⟩
    rintro ⟨h3, rfl, -⟩; omega

/-- exact effect of one call -/
theorem step_spec {p : MPlex α W} (h : p.PInv) (past : List (POp α W))
    (hL : ∀ L, (p.child? L).isSome = true ↔ Spec.HasLayer p.aspects p.fic past L) (op : POp α W) :
    p.SameP (p.step op).1 ∧
    (∀ x, (p.step op).1.inSlice 0 x ↔ p.inSlice 0 x ∨ Spec.NamesNodeP p.aspects p.fic x past op) ∧
    (∀ a x, 1 ≤ a → ((p.step op).1.inSlice a x ↔ p.inSlice a x ∨ Spec.NamesLayerP p.aspects p.fic a x op)) ∧
    (p.fic = false → ∀ s n, s.length = p.aspects →
      ((p.step op).1.kid (.ofList s) n ↔ p.kid (.ofList s) n ∨ Spec.PutsOnLayer p.aspects n s past op)) ∧
    (∀ s a b, s.length = p.aspects → (p.step op).1.lkA (.ofList s) [a] [b] =
      match Spec.writtenP p.aspects p.directed p.fic s a b past op with
      | some w => if w = 0 then none else some w
      | none => p.lkA (.ofList s) [a] [b]) := by
  classical
  have ofEff : ∀ {q : MPlex α W} {dS dK dR}, q.P0 → Eff p q dS dK dR → ∀ s a b, q.lkA (.ofList s) [a] [b] =
      p.lkA (.ofList s) [a] [b] := fun _ e s a b => e.lkA_eq ..
  cases op with
  | addNode n layer =>
    obtain ⟨h1, -, e⟩ := addNode_spec h n layer
    refine ⟨e.par, ?_, ?_, ?_, ?_⟩
    · intro x
      simp only [step]
      rw [e.sl]
      refine or_congr_right ?_
      simp only [Spec.NamesNodeP, Spec.general, Option.some.injEq, exists_eq_left', Spec.NamesNode]
      constructor
      · rintro (⟨-, rfl⟩ | ⟨L, -, -, -, h3, -⟩)
        · rfl
        · omega
      · rintro rfl; left; simp
    · intro a x ha
      simp only [step]
      rw [e.sl]
      refine or_congr_right ?_
      simp only [Spec.NamesLayerP, Spec.general, Option.some.injEq, exists_eq_left']
      constructor
      · rintro (⟨rfl, -⟩ | ⟨L, rfl, hf, hk, h3, h4, h5⟩)
        · omega
        · cases L with
          | el l =>
            simp only [Kinded] at hk
            simp only [LKey.toList] at h5
            refine ⟨hf, hk, by omega, ?_⟩
            obtain rfl : a = 1 := by omega
            simpa using h5
          | tup l => exact ⟨hf, hk, h4, h5⟩
      · intro hn
        right
        cases layer with
        | none => exact hn.elim
        | some L =>
          cases L with
          | el l =>
            obtain ⟨hf, hk, rfl, rfl⟩ := hn
            exact ⟨.el l, rfl, hf, hk, by omega, by omega, rfl⟩
          | tup l =>
            obtain ⟨hf, hk, h4, h5⟩ := hn
            exact ⟨.tup l, rfl, hf, hk, ha, h4, h5⟩
    · intro hf s m hs
      simp only [step]
      rw [e.kd hf]
      refine or_congr_right ?_
      simp only [Spec.PutsOnLayer, Spec.general, Option.some.injEq, exists_eq_left']
      constructor
      · rintro ⟨rfl, rfl, -, hk, hl⟩
        match s, hs with
        | [x], hs => exact ⟨hs.symm, rfl⟩
        | [], hs => have := h.core.asp; simp at hs; omega
        | x :: y :: t, hs => exact ⟨hk, hs, rfl⟩
      · intro hn
        cases layer with
        | none => exact hn.elim
        | some L =>
          cases L with
          | el l =>
            obtain ⟨h3, h4⟩ := hn
            cases h4
            exact ⟨rfl, rfl, hf, h3, by simp [LKey.ofList, LKey.toList, h3]⟩
          | tup l =>
            obtain ⟨h3, h4, h5⟩ := hn
            cases h5
            match s, h4 with
            | [x], h4 => simp at h4; omega
            | [], h4 => simp at h4; omega
            | x :: y :: t, h4 => exact ⟨rfl, rfl, hf, h3, h4⟩
    · intro s a b _
      simp only [step, Spec.writtenP]
      exact ofEff h1.core e s a b
  | addLayer x a =>
    by_cases ha : a = 0
    · subst ha
      obtain ⟨h1, -, e⟩ := addLayer_zero h x
      refine ⟨e.par, ?_, ?_, ?_, ?_⟩
      · intro y
        simp only [step]
        rw [e.sl]
        refine or_congr_right ?_
        simp only [Spec.NamesNodeP, Spec.general, Option.some.injEq, exists_eq_left', Spec.NamesNode, true_and]
        exact eq_comm
      · intro b y hb
        simp only [step]
        rw [e.sl]
        refine or_congr_right ?_
        simp only [Spec.NamesLayerP, Spec.general, Option.some.injEq, exists_eq_left', Spec.NamesLayer]
        omega
      · intro hf s m _
        simp only [step]
        rw [e.kd hf]
        simp [Spec.PutsOnLayer, Spec.general, Spec.NamesNodeLayer]
      · intro s a b _
        simp only [step, Spec.writtenP]
        exact ofEff h1.core e s a b
    · obtain ⟨h1, dS, e, hdS⟩ := addElem_params h x (a := a) (by omega)
      refine ⟨e.par, ?_, ?_, ?_, ?_⟩
      · intro y
        simp only [step]
        rw [e.sl]
        refine or_congr_right ?_
        simp only [Spec.NamesNodeP, Spec.general, Option.some.injEq, exists_eq_left', Spec.NamesNode]
        have := (hdS 1 y (by omega)).2
        simp [this, ha]
      · intro b y hb
        simp only [step]
        rw [e.sl]
        refine or_congr_right ?_
        simp only [Spec.NamesLayerP, Spec.general, Option.some.injEq, exists_eq_left', Spec.NamesLayer]
        rw [(hdS b y hb).1]
        constructor
        · rintro ⟨h3, rfl, rfl⟩; exact ⟨h3, rfl, rfl⟩
        · rintro ⟨h3, rfl, rfl⟩; exact ⟨h3, rfl, rfl⟩
      · intro hf s m _
        simp only [step]
        rw [e.kd hf]
        simp [Spec.PutsOnLayer, Spec.general, Spec.NamesNodeLayer]
      · intro s a b _
        simp only [step, Spec.writtenP]
        exact ofEff h1.core e s a b
  | setItem item w =>
    by_cases hl : item.length = 2 * (p.aspects + 1) ∨ item.length = p.aspects + 2
    · obtain ⟨i, s, j, t, ha⟩ := exists_addr p hl
      obtain ⟨-, -, r1, r2, -, r3, -, r4⟩ := setItem_spec h ha w
      have uniq : ∀ u v, Spec.Addresses p.aspects item u v → u = i :: s ∧ v = j :: t := by
        intro u v hu
        exact addresses_unique hu ha
      refine ⟨r1, ?_, ?_, ?_, ?_⟩
      · intro x
        simp only [step]
        rw [r2]
        refine or_congr_right ?_
        simp only [Spec.NamesNodeP, Spec.general, Option.some.injEq, exists_eq_left', Spec.NamesNode]
        constructor
        · intro h1; exact ⟨_, _, ha, by simpa using h1⟩
        · rintro ⟨u, v, h1, h2⟩
          obtain ⟨rfl, rfl⟩ := uniq u v h1
          simpa using h2
      · intro a x _
        simp only [step]
        rw [r2]
        refine or_congr_right ?_
        simp only [Spec.NamesLayerP, Spec.general, Option.some.injEq, exists_eq_left', Spec.NamesLayer]
        constructor
        · intro h1; exact ⟨_, _, ha, h1⟩
        · rintro ⟨u, v, h1, h2⟩
          obtain ⟨rfl, rfl⟩ := uniq u v h1
          exact h2
      · intro hf s' m hs'
        simp only [step]
        rw [r3 hf]
        refine or_congr_right ?_
        simp only [Spec.PutsOnLayer, Spec.general, Option.some.injEq, exists_eq_left', Spec.NamesNodeLayer]
        constructor
        · rintro (⟨h1, rfl⟩ | ⟨h1, rfl⟩)
          · rw [ofList_inj' h1]; exact ⟨_, _, ha, Or.inl rfl⟩
          · rw [ofList_inj' h1]; exact ⟨_, _, ha, Or.inr rfl⟩
        · rintro ⟨u, v, h1, h2⟩
          obtain ⟨rfl, rfl⟩ := uniq u v h1
          rcases h2 with h2 | h2 <;> cases h2
          · exact Or.inl ⟨rfl, rfl⟩
          · exact Or.inr ⟨rfl, rfl⟩
      · intro s' a b _
        simp only [step, Spec.writtenP]
        rw [r4]
        have : ((i ≠ j ∧ s = t) ∧ LKey.ofList s' = .ofList s ∧ p.SameA i j a b) ↔
            ∃ c d, c ≠ d ∧ Spec.Addresses p.aspects item (c :: s') (d :: s') ∧ Spec.SameLink p.directed c d a b := by
          constructor
          · rintro ⟨⟨h1, rfl⟩, h2, h3⟩
            rw [ofList_inj' h2]
            exact ⟨i, j, h1, ha, h3⟩
          · rintro ⟨c, d, h1, h2, h3⟩
            obtain ⟨e1, e2⟩ := uniq _ _ h2
            cases e1; cases e2
            exact ⟨⟨h1, rfl⟩, rfl, h3⟩
        by_cases hc : (i ≠ j ∧ s = t) ∧ LKey.ofList s' = .ofList s ∧ p.SameA i j a b
        · rw [if_pos hc, if_pos (this.1 hc)]
        · rw [if_neg hc, if_neg (fun h => hc (this.2 h))]
    · have hq : (p.step (.setItem item w)).1 = p := by simp only [step]; rw [setItem_arity p hl]
      have no : ∀ u v, ¬ Spec.Addresses p.aspects item u v := by
        intro u v hu; exact hl (addresses_length hu)
      rw [hq]
      refine ⟨⟨rfl, rfl, rfl, rfl, rfl⟩, ?_, ?_, ?_, ?_⟩
      · intro x; simp [Spec.NamesNodeP, Spec.general, Spec.NamesNode, no]
      · intro a x _; simp [Spec.NamesLayerP, Spec.general, Spec.NamesLayer, no]
      · intro _ s m _; simp [Spec.PutsOnLayer, Spec.general, Spec.NamesNodeLayer, no]
      · intro s a b _; simp [Spec.writtenP, no]
  | intraAddNode L n =>
    cases hc : p.child? L with
    | none =>
      have hq : (p.step (.intraAddNode L n)).1 = p := by simp only [step, childAddNode, hc]
      have no : ¬ Spec.HasLayer p.aspects p.fic past L := by rw [← hL, hc]; simp
      rw [hq]
      refine ⟨⟨rfl, rfl, rfl, rfl, rfl⟩, ?_, ?_, ?_, ?_⟩
      · intro x; simp [Spec.NamesNodeP, no]
      · intro a x _; simp [Spec.NamesLayerP, Spec.general]
      · intro hf s m _
        rw [hf] at no
        simp [Spec.PutsOnLayer, no]
      · intro s a b _; simp [Spec.writtenP]
    | some c =>
      have yes : Spec.HasLayer p.aspects p.fic past L := by rw [← hL, hc]; rfl
      obtain ⟨-, e1, e⟩ := childAddNode_spec h.core hc n
      refine ⟨e.par, ?_, ?_, ?_, ?_⟩
      · intro x
        simp only [step]
        rw [e.sl]
        simp only [Spec.NamesNodeP, yes, true_and]
        rw [eq_comm]
      · intro a x ha
        simp only [step]
        rw [e.sl]
        refine or_congr_right ?_
        simp only [Spec.NamesLayerP, Spec.general]
        constructor
        · rintro ⟨h1, -⟩; omega
        · rintro ⟨o, h1, -⟩; cases h1
      · intro hf s m hs
        simp only [step]
        rw [e.kd hf]
        rw [hf] at yes
        simp only [Spec.PutsOnLayer, yes, true_and]
        refine or_congr_right ?_
        constructor <;> rintro ⟨h1, h2⟩ <;> exact ⟨h1.symm, h2.symm⟩
      · intro s a b _
        simp only [step, Spec.writtenP]
        exact ofEff e1 e s a b
  | intraSet L i j w =>
    cases hc : p.child? L with
    | none =>
      have hq : (p.step (.intraSet L i j w)).1 = p := by simp only [step]; rw [childSetItem_none hc]
      have no : ¬ Spec.HasLayer p.aspects p.fic past L := by rw [← hL, hc]; simp
      rw [hq]
      refine ⟨⟨rfl, rfl, rfl, rfl, rfl⟩, ?_, ?_, ?_, ?_⟩
      · intro x; simp [Spec.NamesNodeP, no]
      · intro a x _; simp [Spec.NamesLayerP, Spec.general]
      · intro hf s m _
        rw [hf] at no
        simp [Spec.PutsOnLayer, no]
      · intro s a b _; simp [Spec.writtenP, no]
    | some c =>
      have yes : Spec.HasLayer p.aspects p.fic past L := by rw [← hL, hc]; rfl
      obtain ⟨-, -, c1, c2, -, c3, -, c4⟩ := childSetItem_spec h.core hc i j w
      refine ⟨c1, ?_, ?_, ?_, ?_⟩
      · intro x
        simp only [step]
        rw [c2]
        simp only [Spec.NamesNodeP, yes, true_and]
        refine or_congr_right (or_congr eq_comm eq_comm)
      · intro a x ha
        simp only [step]
        rw [c2]
        refine or_congr_right ?_
        simp only [Spec.NamesLayerP, Spec.general]
        constructor
        · rintro ⟨h1, -⟩; omega
        · rintro ⟨o, h1, -⟩; cases h1
      · intro hf s m hs
        simp only [step]
        rw [c3 hf]
        rw [hf] at yes
        simp only [Spec.PutsOnLayer, yes, true_and]
        refine or_congr_right (and_congr eq_comm (or_congr eq_comm eq_comm))
      · intro s a b _
        simp only [step, Spec.writtenP]
        rw [c4]
        simp only [yes, true_and]
        by_cases hcond : LKey.ofList s = L ∧ p.SameA i j a b
        · have h2 : L = .ofList s ∧ Spec.SameLink p.directed i j a b := ⟨hcond.1.symm, hcond.2⟩
          rw [if_pos hcond, if_pos h2]
        · rw [if_neg hcond, if_neg (fun h => hcond ⟨h.1.symm, h.2⟩)]

theorem run_params {p : MPlex α W} (h : p.PInv) (ops : List (POp α W)) : p.SameP (p.run ops) := by
  induction ops using List.reverseRecOn with
  | nil => exact ⟨rfl, rfl, rfl, rfl, rfl⟩
  | append_singleton ops op ih =>
    rw [run_snoc]
    have hp := run_pinv h ops
    have : (p.run ops).SameP ((p.run ops).step op).1 := by
      cases op with
      | addNode n l => exact (addNode_spec hp n l).2.2.par
      | addLayer x a =>
        by_cases ha : a = 0
        · subst ha; exact (addLayer_zero hp x).2.2.par
        · obtain ⟨-, dS, e, -⟩ := addElem_params hp x (a := a) (by omega)
          exact e.par
      | setItem item w =>
        by_cases hl : item.length = 2 * ((p.run ops).aspects + 1) ∨ item.length = (p.run ops).aspects + 2
        · obtain ⟨i, s, j, t, ha⟩ := exists_addr _ hl
          exact (setItem_spec hp ha w).2.2.1
        · simp only [step]; rw [setItem_arity _ hl]; exact ⟨rfl, rfl, rfl, rfl, rfl⟩
      | intraAddNode L n =>
        cases hc : (p.run ops).child? L with
        | none => simp only [step, childAddNode, hc]; exact ⟨rfl, rfl, rfl, rfl, rfl⟩
        | some c => exact (childAddNode_spec hp.core hc n).2.2.par
      | intraSet L i j w =>
        cases hc : (p.run ops).child? L with
        | none => simp only [step]; rw [childSetItem_none hc]; exact ⟨rfl, rfl, rfl, rfl, rfl⟩
        | some c => exact (childSetItem_spec hp.core hc i j w).2.2.1
    obtain ⟨a1, a2, a3, a4, a5⟩ := ih
    obtain ⟨b1, b2, b3, b4, b5⟩ := this
    exact ⟨b1.trans a1, b2.trans a2, b3.trans a3, b4.trans a4, b5.trans a5⟩

omit [DecidableEq α] [DecidableEq W] [Zero W] in
theorem happened_nil (P : List (POp α W) → POp α W → Prop) : ¬ Spec.Happened P [] := by
  rintro ⟨past, op, rest, h, -⟩
  cases past <;> cases h

omit [DecidableEq α] [DecidableEq W] [Zero W] in
theorem happened_snoc (P : List (POp α W) → POp α W → Prop) (ops : List (POp α W)) (op : POp α W) :
    Spec.Happened P (ops ++ [op]) ↔ Spec.Happened P ops ∨ P ops op := by
  constructor
  · rintro ⟨past, o, rest, h, hP⟩
    rcases List.eq_nil_or_concat rest with rfl | ⟨r, x, rfl⟩
    · obtain ⟨rfl, h2⟩ := List.append_inj' h rfl
      cases h2
      exact Or.inr hP
    · have h' : ops ++ [op] = (past ++ o :: r) ++ [x] := by rw [h]; simp
      obtain ⟨h1, -⟩ := List.append_inj' h' rfl
      exact Or.inl ⟨past, o, r, h1, hP⟩
  · rintro (⟨past, o, rest, rfl, hP⟩ | hP)
    · exact ⟨past, o, rest ++ [op], by simp, hP⟩
    · exact ⟨ops, op, [], rfl, hP⟩

theorem readP_snoc (aspects : Nat) (directed aligned : Bool) (ops : List (POp α W)) (op : POp α W) (s : List α)
    (i j : α) : Spec.readP aspects directed aligned (ops ++ [op]) s i j =
      (Spec.writtenP aspects directed aligned s i j ops op).getD (Spec.readP aspects directed aligned ops s i j) := by
  unfold Spec.readP
  rw [List.foldl_append]
  simp only [List.foldl_cons, List.foldl_nil]
  have : ∀ (st : List (POp α W) × W), (ops.foldl (fun (st : List (POp α W) × W) op =>
      (st.1 ++ [op], (Spec.writtenP aspects directed aligned s i j st.1 op).getD st.2)) st).1 = st.1 ++ ops := by
    induction ops with
    | nil => simp
    | cons o ops ih => intro st; rw [List.foldl_cons, ih]; simp
  rw [this, List.nil_append]

/-- The state after a history, as a function of the history. -/
theorem run_spec (cs : List (Coupling α W)) (hcs : cs ≠ []) (directed : Bool) (ne : W) (fic : Bool)
    (ops : List (POp α W)) :
    (∀ x, ((init cs directed ne fic).run ops).inSlice 0 x ↔
      Spec.Happened (fun past op => Spec.NamesNodeP cs.length fic x past op) ops) ∧
    (∀ a x, 1 ≤ a → (((init cs directed ne fic).run ops).inSlice a x ↔
      ∃ op ∈ ops, Spec.NamesLayerP cs.length fic a x op)) ∧
    (∀ L, (((init cs directed ne fic).run ops).child? L).isSome = true ↔ Spec.HasLayer cs.length fic ops L) ∧
    (fic = false → ∀ s n, s.length = cs.length → (((init cs directed ne fic).run ops).kid (.ofList s) n ↔
      Spec.Happened (fun past op => Spec.PutsOnLayer cs.length n s past op) ops)) ∧
    (∀ s a b, s.length = cs.length → (((init cs directed ne fic).run ops).lkA (.ofList s) [a] [b]).getD 0 =
      Spec.readP cs.length directed fic ops s a b) := by
  have keys : ∀ ops : List (POp α W), (∀ a x, 1 ≤ a → (((init cs directed ne fic).run ops).inSlice a x ↔
      ∃ op ∈ ops, Spec.NamesLayerP cs.length fic a x op)) →
      (∀ L, (((init cs directed ne fic).run ops).child? L).isSome = true ↔ Spec.HasLayer cs.length fic ops L) := by
    intro ops hS L
    have hp := run_pinv (init_pinv cs hcs directed ne fic) ops
    have ha : ((init cs directed ne fic).run ops).aspects = cs.length :=
      (run_params (init_pinv cs hcs directed ne fic) ops).1
    rw [hp.core.akeys, ha]
    unfold Spec.HasLayer
    refine exists_congr fun s => and_congr_right fun _ => and_congr_right fun _ => ?_
    refine forall_congr' fun k => forall_congr' fun x => imp_congr_right fun _ => ?_
    exact hS (k + 1) x (by omega)
  induction ops using List.reverseRecOn with
  | nil =>
    have hin : ∀ a x, ¬ (init cs directed ne fic).inSlice a x := by
      rintro a x ⟨s, hs, hx⟩
      simp only [init] at hs
      rw [List.getElem?_replicate] at hs
      split at hs
      · cases hs; cases hx
      · cases hs
    have hS : ∀ a x, 1 ≤ a → (((init cs directed ne fic).run []).inSlice a x ↔
      ∃ op ∈ ([] : List (POp α W)), Spec.NamesLayerP cs.length fic a x op) := by
      intro a x _
      simp [run, hin]
    refine ⟨?_, hS, keys [] hS, ?_, ?_⟩
    · intro x; simp [happened_nil, run, hin]
    · intro _ s n _
      simp only [happened_nil, iff_false]
      rintro ⟨c, hc, -⟩
      cases hc
    · intro s a b _; rfl
  | append_singleton ops op ih =>
    obtain ⟨i1, i2, i3, i4, i5⟩ := ih
    have hp := run_pinv (init_pinv cs hcs directed ne fic) ops
    obtain ⟨a1, a2, a3, a4, a5⟩ := run_params (init_pinv cs hcs directed ne fic) ops
    simp only [init] at a1 a2 a3 a4 a5
    have st := step_spec hp ops (by rw [show ((init cs directed ne fic).run ops).aspects = cs.length from a1,
      show ((init cs directed ne fic).run ops).fic = fic from a4]; exact i3) op
    rw [show ((init cs directed ne fic).run ops).aspects = cs.length from a1,
      show ((init cs directed ne fic).run ops).fic = fic from a4,
      show ((init cs directed ne fic).run ops).directed = directed from a2] at st
    obtain ⟨-, s1, s2, s3, s4⟩ := st
    have hS : ∀ a x, 1 ≤ a → (((init cs directed ne fic).run (ops ++ [op])).inSlice a x ↔
      ∃ o ∈ ops ++ [op], Spec.NamesLayerP cs.length fic a x o) := by
      intro a x ha
      rw [run_snoc, s2 a x ha, i2 a x ha]
      simp [or_and_right, exists_or]
    refine ⟨?_, hS, keys _ hS, ?_, ?_⟩
    · intro x
      rw [run_snoc, s1, i1, happened_snoc]
    · intro hf s n hs
      rw [run_snoc, s3 hf s n hs, i4 hf s n hs, happened_snoc]
    · intro s a b hs
      rw [run_snoc, s4 s a b hs, readP_snoc, ← i5 s a b hs]
      cases Spec.writtenP cs.length directed fic s a b ops op with
      | none => rfl
      | some w =>
        simp only [Option.getD_some]
        by_cases hw : w = 0
        · simp [hw]
        · simp [hw]

/-- without self-links written through the layers there are none -/
theorem run_noself {p : MPlex α W} (h : p.PInv) (h0 : ∀ L a, p.lkA L [a] [a] = none) (ops : List (POp α W))
    (hs : Spec.NoIntraSelf ops) : ∀ L a, (p.run ops).lkA L [a] [a] = none := by
  classical
  induction ops using List.reverseRecOn with
  | nil => exact h0
  | append_singleton ops op ih =>
    have hp := run_pinv h ops
    have ih := ih (fun L i w hm => hs L i w (by simp [hm]))
    rw [run_snoc]
    intro L a
    cases op with
    | addNode n l => exact ((addNode_spec hp n l).2.2.lkA_eq ..).trans (ih L a)
    | addLayer x b =>
      by_cases hb : b = 0
      · subst hb; exact ((addLayer_zero hp x).2.2.lkA_eq ..).trans (ih L a)
      · obtain ⟨h1, dS, e, -⟩ := addElem_params hp x (a := b) (by omega)
        exact (e.lkA_eq ..).trans (ih L a)
    | setItem item w =>
      by_cases hl : item.length = 2 * ((p.run ops).aspects + 1) ∨ item.length = (p.run ops).aspects + 2
      · obtain ⟨i, s, j, t, ha⟩ := exists_addr _ hl
        have := (setItem_spec hp ha w).2.2.2.2.2.2.2 L a a
        simp only [step]
        rw [this, if_neg]
        · exact ih L a
        · rintro ⟨⟨h1, -⟩, -, h2⟩
          rcases h2 with ⟨rfl, rfl⟩ | ⟨-, rfl, rfl⟩ <;> exact h1 rfl
      · simp only [step]; rw [setItem_arity _ hl]; exact ih L a
    | intraAddNode L' n =>
      cases hc : (p.run ops).child? L' with
      | none => simp only [step, childAddNode, hc]; exact ih L a
      | some c =>
        have := childAddNode_spec hp.core hc n
        exact (this.2.2.lkA_eq ..).trans (ih L a)
    | intraSet L' i j w =>
      cases hc : (p.run ops).child? L' with
      | none => simp only [step]; rw [childSetItem_none hc]; exact ih L a
      | some c =>
        have := (childSetItem_spec hp.core hc i j w).2.2.2.2.2.2.2 L a a
        simp only [step]
        rw [this, if_neg]
        · exact ih L a
        · rintro ⟨-, h2⟩
          have : i = j := by rcases h2 with ⟨rfl, rfl⟩ | ⟨-, rfl, rfl⟩ <;> rfl
          subst this
          exact hs L' i w (by simp)

/-- `lkA` gives what the intra-layer network reads -/
theorem lkA_reads {p : MPlex α W} (h : p.P0) {L : LKey α} {c : MNet α W} (hc : p.child? L = some c) (a b : List α) :
    c.reads a b = (p.lkA L a b).getD 0 := by
  have hk := h.kids _ _ hc
  simp [MNet.reads, lkA, hc, hk.ne]

/-- Reads between existing node-layers depend only on their intra-layer links. -/
theorem getLink_frame [IntNames α] {p q : MPlex α W} (hp : p.P0) (hq : q.P0) (hs : p.SameP q)
    (hsl : ∀ a x, p.inSlice a x → q.inSlice a x) (hk : p.fic = false → ∀ L n, p.kid L n → q.kid L n)
    {i j : α} {s t : List α} (hu : i :: s ∈ product p.slices) (hv : j :: t ∈ product p.slices)
    (ku : p.fic = true ∨ p.kid (.ofList s) i) (kv : p.fic = true ∨ p.kid (.ofList t) j)
    (hlk : i ≠ j → s = t → q.lkA (.ofList s) [i] [j] = p.lkA (.ofList s) [i] [j]) :
    q.getLink (interleave (i :: s) (j :: t)) = p.getLink (interleave (i :: s) (j :: t)) := by
  obtain ⟨e1, e2, e3, e4, e5⟩ := hs
  obtain ⟨lu, ru⟩ := (mem_product_iff hp _).1 hu
  obtain ⟨lv, rv⟩ := (mem_product_iff hp _).1 hv
  have up : ∀ {u}, u ∈ product p.slices → u ∈ product q.slices := by
    intro u h
    rw [mem_product_iff hp] at h
    rw [mem_product_iff hq, e1]
    exact ⟨h.1, fun a x hx => hsl a x (h.2 a x hx)⟩
  have hl : (i :: s).length = (j :: t).length := by rw [lu, lv]
  by_cases hd : ∃ d, interAspects (interleave (i :: s) (j :: t)) 0 = [d]
  · obtain ⟨d, hd⟩ := hd
    obtain ⟨y, h1, h2, h3⟩ := (differ_iff hl d).1 hd
    cases d with
    | zero =>
      simp only [List.set_cons_zero, List.cons.injEq] at h3
      obtain ⟨rfl, rfl⟩ := h3
      have hij : i ≠ j := by simpa using h1
      obtain ⟨c, hc⟩ := child_of_product hp hu
      obtain ⟨c', hc'⟩ := child_of_product hq (up hu)
      rw [getLink_intra hc hij, getLink_intra hc' hij, lkA_reads hp hc, lkA_reads hq hc', hlk hij rfl]
    | succ d =>
      simp only [List.set_cons_succ, List.cons.injEq] at h3
      obtain ⟨rfl, rfl⟩ := h3
      have hds : d < s.length := by simpa using h2
      obtain ⟨x, hx⟩ : ∃ x, s[d]? = some x := ⟨_, List.getElem?_eq_getElem hds⟩
      have hxy : x ≠ y := by
        rintro rfl
        apply h1; simpa using hx
      have hdc : d < p.couplings.length := by rw [hp.clen]; simp at lu; omega
      obtain ⟨c, hc⟩ : ∃ c, p.couplings[d]? = some c := ⟨_, List.getElem?_eq_getElem hdc⟩
      have cr : q.couplingRead c x y = p.couplingRead c x y := by
        unfold couplingRead
        rw [e3]
      have hc' : q.couplings[d]? = some c := by rw [e5]; exact hc
      cases hf : p.fic with
      | true =>
        have hin : p.inSlice 0 j := ru 0 j rfl
        rw [getLink_aligned hf hx hxy ((head_inSlice (by rw [hp.slen]; omega) _).2 hin) hc,
          getLink_aligned (by rw [e4]; exact hf) hx hxy ((head_inSlice (by rw [hq.slen]; omega) _).2 (hsl _ _ hin)) hc', cr]
      | false =>
        have k1 : p.kid (.ofList s) j := by simpa [hf] using ku
        have k2 : p.kid (.ofList (s.set d y)) j := by simpa [hf] using kv
        rw [getLink_nonaligned_pos hp hf hx hxy hc k1 k2,
          getLink_nonaligned_pos hq (by rw [e4]; exact hf) hx hxy hc' (hk hf _ _ k1) (hk hf _ _ k2), cr]
  · have hd' : ∀ d, interAspects (interleave (i :: s) (j :: t)) 0 ≠ [d] := fun d e => hd ⟨d, e⟩
    rw [getLink_other hd', getLink_other hd', e3]

end MPlex

end Pymnet
