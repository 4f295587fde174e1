import Verif.Proofs.Plex

set_option linter.unusedSectionVars false
set_option linter.unusedSimpArgs false
set_option linter.unnecessarySimpa false

namespace Pymnet

open Py

namespace MPlex

variable {α W : Type} [DecidableEq α] [DecidableEq W] [Zero W]

omit [DecidableEq W] [Zero W] in
theorem sadd_idem (s : List α) (x : α) : sadd (sadd s x) x = sadd s x := by
  unfold sadd
  by_cases h : x ∈ s <;> simp [h]

theorem PInv.of_eff {p q : MPlex α W} {dS dK dR} (h : p.PInv) (hq : q.P0) (e : Eff p q dS dK dR)
    (hd : p.fic = false → ∀ L n, (q.child? L).isSome = true → (dK L n ↔ dR n L))
    (hr : ∀ n L, dR n L → p.fic = false ∧ ((q.child? L).isSome = true ∨ (2 ≤ p.aspects ∧ L.toList.length < p.aspects))) :
    q.PInv := by
  obtain ⟨e1, e2, e3, e4, e5⟩ := e.par
  refine ⟨hq, ?_, ?_⟩
  · intro hf L n hL
    rw [e4] at hf
    rw [e.kd hf, e.rg]
    have h2 := hd hf L n hL
    cases hp : p.child? L with
    | some c =>
      have := h.regs hf L n (by rw [hp]; rfl)
      rw [this, h2]
    | none =>
      have hk : ¬ p.kid L n := by rintro ⟨c, hc, -⟩; rw [hp] at hc; cases hc
      have hr' : ¬ p.reg n L := by
        intro hr'
        rcases (h.rkey n L hr').2 with h3 | h3
        · rw [hp] at h3; cases h3
        · obtain ⟨s, rfl, hs, -⟩ := (hq.akeys L).1 hL
          rw [ofList_toList', hs, e1] at h3
          omega
      simp [hk, hr', h2]
  · intro n L hL
    rw [e4, e1]
    rcases (e.rg n L).1 hL with h1 | h1
    · have := h.rkey n L h1
      exact ⟨this.1, this.2.imp (e.isSome L) id⟩
    · exact hr n L h1

theorem putChild_eq {p : MPlex α W} (h : p.P0) {L : LKey α} {c c' : MNet α W} (hc : p.child? L = some c)
    (hf : p.fic = true → c'.slices = c.slices) : p.putChild L c' = { p with A := Dict.set p.A L c' } := by
  unfold putChild
  cases hfic : p.fic with
  | false => simp
  | true =>
    have : c.slices = [p.slices.headD []] := by
      unfold child? at hc
      cases hg : Dict.get p.A L with
      | none => rw [hg] at hc; cases hc
      | some d => rw [hg] at hc; simp [hfic] at hc; subst hc; simp
    have hl : 0 < p.slices.length := by rw [h.slen]; omega
    rw [hf hfic, this]
    simp only [if_true, List.headD_cons]
    have : p.slices.set 0 (p.slices.headD []) = p.slices := by
      match hs : p.slices, hl with
      | s :: t, _ => rfl
    rw [this]

/-- replacing one intra-layer network -/
theorem putChild_spec {p : MPlex α W} (h : p.P0) {L : LKey α} {c c' : MNet α W} (hc : p.child? L = some c)
    (hk : p.KidOk c') (hs : ∀ x ∈ c'.slices.headD [], p.inSlice 0 x)
    (hf : p.fic = true → c'.slices = c.slices) :
    p.putChild L c' = { p with A := Dict.set p.A L c' } ∧
    (∀ L', (p.putChild L c').child? L' = if L = L' then some c' else p.child? L') ∧
    (p.putChild L c').P0 := by
  have e := putChild_eq h hc hf
  have hch : ∀ L', (p.putChild L c').child? L' = if L = L' then some c' else p.child? L' := by
    intro L'
    rw [e]
    unfold child?
    simp only [Dict.get_set]
    by_cases hL : L = L'
    · rw [if_pos hL, if_pos hL]
      by_cases hfic : p.fic
      · have h2 : c.slices = [p.slices.headD []] := by
          unfold child? at hc
          cases hg : Dict.get p.A L with
          | none => rw [hg] at hc; cases hc
          | some d => rw [hg] at hc; simp [hfic] at hc; subst hc; simp
        have h3 := (hf hfic).trans h2
        simp only [Option.map_some, hfic, if_true, ← h3]
      · simp [hfic]
    · rw [if_neg hL, if_neg hL]
  have hsome : ∀ L', ((p.putChild L c').child? L').isSome = (p.child? L').isSome := by
    intro L'
    rw [hch]; split
    · rename_i e'; subst e'; rw [hc]; rfl
    · rfl
  refine ⟨e, hch, ⟨?_, ?_, ?_, ?_, ?_, ?_, ?_, ?_⟩⟩
  · rw [e]; exact h.asp
  · rw [e]; exact h.slen
  · rw [e]; exact h.snodup
  · rw [e]; exact h.clen
  · intro L'
    rw [hsome, h.akeys, e]; rfl
  · intro L' d hd
    rw [hch] at hd
    rw [e]
    split at hd
    · cases hd; exact ⟨hk.inv, hk.asp, hk.dir, hk.ne⟩
    · have := h.kids L' d hd
      exact ⟨this.inv, this.asp, this.dir, this.ne⟩
  · rintro L' n ⟨d, hd, hn⟩
    rw [hch] at hd
    rw [e]
    split at hd
    · cases hd; exact hs n hn
    · exact h.ksub L' n ⟨d, hd, hn⟩
  · rw [e]; exact h.rnodup

theorem child_addNode {p : MPlex α W} {c : MNet α W} (h : p.KidOk c) (n : α) :
    (c.addNode n none).1 = { c with slices := [sadd (c.slices.headD []) n] } := by
  have hc := MNet.headD_of_inv h.inv.r h.asp
  have hl : 0 < c.slices.length := by rw [hc]; simp
  unfold MNet.addNode MNet.sliceAdd
  rw [if_pos hl]
  simp only [Outcome.andThen_ok]
  rw [hc]; simp

/-- the elements of an existing layer are registered -/
theorem addElems_noop (ls : List α) (p : MPlex α W) (a : Nat)
    (h : ∀ i x, ls[i]? = some x → p.inSlice (a + i) x) : p.addElems ls a = (p, none) := by
  induction ls generalizing a with
  | nil => rfl
  | cons l ls ih =>
    obtain ⟨s, hs, hl⟩ := h 0 l rfl
    unfold addElems
    rw [Nat.add_zero] at hs
    simp only [hs, hl, if_true]
    refine ih (a + 1) fun i x hx => ?_
    have := h (i + 1) x (by simpa using hx)
    rwa [show a + 1 + i = a + (i + 1) by omega]

/-- key shapes accepted by `add_node` -/
def Kinded (p : MPlex α W) : LKey α → Prop
  | .tup _ => 2 ≤ p.aspects
  | .el _ => p.aspects = 1

theorem kinded_ofList {p : MPlex α W} (h : 1 ≤ p.aspects) {s : List α} (hs : s.length = p.aspects) :
    p.Kinded (.ofList s) := by
  match s, hs with
  | [], hs => simp at hs; omega
  | [x], hs => simp at hs; exact hs.symm
  | x :: y :: t, hs => simp at hs; show 2 ≤ p.aspects; omega

theorem ofList_of_kinded {p : MPlex α W} {L : LKey α} (h : p.Kinded L) (hl : L.toList.length = p.aspects) :
    L = .ofList L.toList := by
  cases L with
  | el a => rfl
  | tup l =>
    match l, hl with
    | [], hl => simp [LKey.toList] at hl; simp [Kinded, ← hl] at h
    | [x], hl => simp [LKey.toList] at hl; simp [Kinded, ← hl] at h
    | x :: y :: t, hl => rfl

theorem regNode_spec {p : MPlex α W} (h : p.P0) (n : α) (layer : Option (LKey α)) :
    (p.regNode n layer).1.P0 ∧
    ((p.regNode n layer).2 = none ↔ ∀ L, layer = some L → p.fic = false →
      p.Kinded L ∧ L.toList.length ≤ p.aspects) ∧
    Eff p (p.regNode n layer).1
      (fun a x => (a = 0 ∧ x = n) ∨ ∃ L, layer = some L ∧ p.fic = false ∧ p.Kinded L ∧ 1 ≤ a ∧ a ≤ p.aspects ∧
        L.toList[a - 1]? = some x)
      (fun _ _ => False)
      (fun m L => m = n ∧ layer = some L ∧ p.fic = false ∧ p.Kinded L ∧ L.toList.length ≤ p.aspects) := by
  obtain ⟨s1, s2, s3⟩ := sliceAdd_zero h n
  unfold regNode
  rw [Outcome.andThen_of_eq s1]
  set q := (p.sliceAdd 0 n).1 with hq
  obtain ⟨q1, q2, q3, q4, q5⟩ := s3.par
  cases layer with
  | none =>
    refine ⟨s2, by simp, s3.congr ?_ (fun _ _ _ => by simp) (fun _ _ => by simp)⟩
    intro a x; simp
  | some L =>
    simp only [q4]
    cases hf : p.fic with
    | true =>
      simp only [if_true]
      refine ⟨s2, by simp, s3.congr ?_ (fun _ _ _ => by simp) (fun _ _ => by simp)⟩
      intro a x; simp
    | false =>
      simp only [Bool.false_eq_true, if_false, q1]
      have key : p.Kinded L →
          ((q.addElems L.toList 1).andThen fun p => (p.regLayer n L, none)).1.P0 ∧
          (((q.addElems L.toList 1).andThen fun p => (p.regLayer n L, none)).2 = none ↔
            ∀ L', some L = some L' → False = False → p.Kinded L' ∧ L'.toList.length ≤ p.aspects) ∧
          Eff p ((q.addElems L.toList 1).andThen fun p => (p.regLayer n L, none)).1
            (fun a x => (a = 0 ∧ x = n) ∨ ∃ L', some L = some L' ∧ False = False ∧ p.Kinded L' ∧ 1 ≤ a ∧
              a ≤ p.aspects ∧ L'.toList[a - 1]? = some x)
            (fun _ _ => False)
            (fun m L' => m = n ∧ some L = some L' ∧ False = False ∧ p.Kinded L' ∧ L'.toList.length ≤ p.aspects) := by
        intro hk
        obtain ⟨e1, e2, e3⟩ := addElems_spec L.toList s2 (a := 1) (Nat.le_refl 1)
        rw [q1] at e2 e3
        have hlen : (L.toList = [] ∨ 1 + L.toList.length ≤ p.aspects + 1) ↔ L.toList.length ≤ p.aspects := by
          constructor
          · rintro (h | h)
            · rw [h]; simp
            · omega
          · intro h; right; omega
        rw [hlen] at e2
        have hS : ∀ a x, (p.inSlice a x ∨ (a = 0 ∧ x = n) ∨ (1 ≤ a ∧ a ≤ p.aspects ∧ L.toList[a - 1]? = some x)) ↔
            (p.inSlice a x ∨ (a = 0 ∧ x = n) ∨ ∃ L', some L = some L' ∧ False = False ∧ p.Kinded L' ∧ 1 ≤ a ∧
              a ≤ p.aspects ∧ L'.toList[a - 1]? = some x) := by
          intro a x; simp [hk]
        by_cases hle : L.toList.length ≤ p.aspects
        · rw [Outcome.andThen_of_eq (e2.2 hle)]
          obtain ⟨r1, r2⟩ := regLayer_spec e1 n L
          refine ⟨r1, by simp [hk, hle], ((s3.trans e3).trans r2).congr ?_ ?_ ?_⟩
          · intro a x; rw [← hS]; simp
          · intro _ _ _; simp
          · intro m L'
            constructor
            · rintro (h | (h | h) | ⟨rfl, rfl⟩)
              · exact Or.inl h
              · exact h.elim
              · exact h.elim
              · exact Or.inr ⟨rfl, rfl, rfl, hk, hle⟩
            · rintro (h | ⟨rfl, e, -⟩)
              · exact Or.inl h
              · cases e; exact Or.inr (Or.inr ⟨rfl, rfl⟩)
        · have hne : (q.addElems L.toList 1).2 ≠ none := fun h => hle (e2.1 h)
          have : (q.addElems L.toList 1).andThen (fun p => (p.regLayer n L, none)) = q.addElems L.toList 1 := by
            generalize q.addElems L.toList 1 = o at hne ⊢
            obtain ⟨o1, _ | e⟩ := o
            · exact absurd rfl hne
            · rfl
          rw [this]
          refine ⟨e1, by simp [e2, hle], (s3.trans e3).congr ?_ ?_ ?_⟩
          · intro a x; rw [← hS]
          · intro _ _ _; simp
          · intro m L'
            constructor
            · rintro (h | h | h)
              · exact Or.inl h
              · exact h.elim
              · exact h.elim
            · rintro (h | ⟨-, e, -, -, h5⟩)
              · exact Or.inl h
              · cases e; exact absurd h5 hle
      have bad : ¬ p.Kinded L → q.P0 ∧
          ((some Err.assertionError : Option Err) = none ↔
            ∀ L', some L = some L' → False = False → p.Kinded L' ∧ L'.toList.length ≤ p.aspects) ∧
          Eff p q
            (fun a x => (a = 0 ∧ x = n) ∨ ∃ L', some L = some L' ∧ False = False ∧ p.Kinded L' ∧ 1 ≤ a ∧
              a ≤ p.aspects ∧ L'.toList[a - 1]? = some x)
            (fun _ _ => False)
            (fun m L' => m = n ∧ some L = some L' ∧ False = False ∧ p.Kinded L' ∧ L'.toList.length ≤ p.aspects) := by
        intro hk
        refine ⟨s2, by simp [hk], s3.congr ?_ (fun _ _ _ => by simp) ?_⟩
        · intro a x; simp [hk]
        · intro m L'
          constructor
          · rintro (h | h)
            · exact Or.inl h
            · exact h.elim
          · rintro (h | ⟨-, e, -, h4, -⟩)
            · exact Or.inl h
            · cases e; exact absurd h4 hk
      cases L with
      | tup l =>
        by_cases hk : 2 ≤ p.aspects
        · simp only [hk, if_true]; simpa [LKey.toList] using key hk
        · simp only [hk, if_false]; simpa [LKey.toList] using bad hk
      | el x =>
        by_cases hk : p.aspects = 1
        · simp only [hk, if_true]; simpa [hk, LKey.toList] using key hk
        · simp only [hk, if_false]; simpa [LKey.toList] using bad hk

theorem childAddNode_spec {p : MPlex α W} (h : p.P0) {L : LKey α} {c : MNet α W} (hc : p.child? L = some c)
    (n : α) :
    (p.childAddNode L n).2 = none ∧ (p.childAddNode L n).1.P0 ∧
    Eff p (p.childAddNode L n).1 (fun a x => a = 0 ∧ x = n) (fun L' m => L' = L ∧ m = n)
      (fun m L' => p.fic = false ∧ m = n ∧ L' = L) := by
  obtain ⟨s1, s2, s3⟩ := sliceAdd_zero h n
  obtain ⟨-, rw2, -, -⟩ := sliceAdd_raw p 0 n (by rw [h.slen]; omega)
  have hk := h.kids L c hc
  have hadd := child_addNode hk n
  set q := (p.sliceAdd 0 n).1 with hq
  obtain ⟨q1, q2, q3, q4, q5⟩ := s3.par
  -- the intra-layer network once the parent knows the node
  obtain ⟨S, hS⟩ := s3.old L c hc
  set c' : MNet α W := { c with slices := [sadd (c.slices.headD []) n] } with hc'
  have hcs := MNet.headD_of_inv hk.inv.r hk.asp
  have hk' : q.KidOk c' := hk.grow q2 (nodup_sadd (hk.inv.r.snodup _ (by rw [hcs]; simp)) n)
    (fun x hx => by rw [mem_sadd]; exact Or.inl hx)
  have hin : ∀ x ∈ c'.slices.headD [], q.inSlice 0 x := by
    intro x hx
    rw [s3.sl]
    rcases mem_sadd.1 hx with h1 | h1
    · exact Or.inl (h.ksub L x ⟨c, hc, h1⟩)
    · exact Or.inr ⟨rfl, h1⟩
  -- state after the first two updates, in either order
  have hcomm : ∃ o, ((p.putChild L c').sliceAdd 0 n) = (o, none) ∧ o = q.putChild L c' ∧
      (p.fic = true → p.putChild L c' = o) := by
    have hl : 0 < p.slices.length := by rw [h.slen]; omega
    cases hf : p.fic with
    | false =>
      refine ⟨_, ?_, rfl, by simp⟩
      unfold putChild
      rw [q4, hf]
      simp only [Bool.false_eq_true, if_false]
      unfold sliceAdd
      simp only
      rw [if_pos hl, rw2]
    | true =>
      have hcsl : c.slices.headD [] = p.slices.headD [] := by
        unfold child? at hc
        cases hg : Dict.get p.A L with
        | none => rw [hg] at hc; cases hc
        | some d => rw [hg] at hc; simp [hf] at hc; subst hc; simp
      have e1 : p.putChild L c' = { p with A := Dict.set p.A L c', slices := p.slices.modify 0 (sadd · n) } := by
        unfold putChild
        simp only [hf, if_true, hc', List.headD_cons, hcsl]
        match hs : p.slices, hl with
        | s :: t, _ => simp [List.modify]
      have e2 : q.putChild L c' = { p with A := Dict.set p.A L c', slices := p.slices.modify 0 (sadd · n) } := by
        unfold putChild
        rw [q4, hf, rw2]
        simp only [if_true, hc', List.headD_cons, hcsl]
        match hs : p.slices, hl with
        | s :: t, _ => simp [List.modify]
      refine ⟨q.putChild L c', ?_, rfl, fun _ => e1.trans e2.symm⟩
      rw [e1, e2]
      unfold sliceAdd
      simp only [List.length_modify]
      rw [if_pos hl]
      simp only [Prod.mk.injEq, and_true]
      congr 1
      match hs : p.slices, hl with
      | s :: t, _ => simp [List.modify, sadd_idem]
  obtain ⟨o, ho1, ho2, ho3⟩ := hcomm
  have hslq : q.fic = true → c'.slices = ({ c with slices := S } : MNet α W).slices := by
    intro hf
    have hfp : p.fic = true := by rw [← q4]; exact hf
    have h1 : c.slices.headD [] = p.slices.headD [] := by
      unfold child? at hc
      cases hg : Dict.get p.A L with
      | none => rw [hg] at hc; cases hc
      | some d => rw [hg] at hc; simp [hfp] at hc; subst hc; simp
    have h2 : S = [q.slices.headD []] := by
      unfold child? at hS
      cases hg : Dict.get q.A L with
      | none => rw [hg] at hS; cases hS
      | some d =>
        rw [hg] at hS; simp only [hf, Option.map_some, if_true, Option.some.injEq] at hS
        exact (congrArg MNet.slices hS).symm
    have hl : 0 < p.slices.length := by rw [h.slen]; omega
    rw [hc']
    simp only [h2, h1, rw2]
    match hs : p.slices, hl with
    | s :: t, _ => simp [List.modify]
  obtain ⟨p1, p2, p3⟩ := putChild_spec s2 hS hk' hin hslq
  rw [← ho2] at p1 p2 p3
  have eo : Eff p o (fun a x => a = 0 ∧ x = n) (fun L' m => L' = L ∧ m = n) (fun _ _ => False) := by
    refine ⟨?_, ?_, ?_, ?_, ?_, ?_⟩
    · rw [p1]; exact ⟨q1, q2, q3, q4, q5⟩
    · rw [p1]; exact s3.sl
    · rw [p1]; exact s3.rg
    · intro hf L' m
      have hqk := s3.kd hf L' m
      simp only [or_false] at hqk
      by_cases hL : L = L'
      · subst hL
        unfold kid
        rw [p2, if_pos rfl, hc]
        simp [hc']
      · have : ¬ L' = L := fun e => hL e.symm
        rw [← hqk]
        unfold kid
        rw [p2, if_neg hL]; simp [this]
    · intro L' d hd
      by_cases hL : L = L'
      · subst hL
        rw [hc] at hd; cases hd
        exact ⟨_, by rw [p2, if_pos rfl]⟩
      · rw [p2, if_neg hL]; exact s3.old L' d hd
    · intro L' d h1 h2
      rw [p2] at h2
      split at h2
      · rename_i e; subst e; rw [hc] at h1; cases h1
      · exact s3.new L' d h1 h2
  unfold childAddNode
  simp only [hc, hadd]
  have hpf : (p.putChild L c').fic = p.fic := rfl
  rw [hpf]
  cases hf : p.fic with
  | true =>
    simp only [if_true]
    rw [ho1]
    refine ⟨rfl, p3, eo.congr (fun _ _ => Iff.rfl) (fun _ _ _ => Iff.rfl) ?_⟩
    intro m L'; simp
  | false =>
    simp only [Bool.false_eq_true, if_false]
    have hof : o.fic = false := by rw [eo.par.2.2.2.1]; exact hf
    have hoa : o.aspects = p.aspects := eo.par.1
    have hoL : (o.child? L).isSome = true := eo.isSome L (by rw [hc]; rfl)
    obtain ⟨s, hs1, hs2, hs3⟩ := (p3.akeys L).1 hoL
    have hreg : (p.putChild L c').regNode n (some L) = (o.regLayer n L, none) := by
      unfold regNode
      rw [ho1]
      simp only [Outcome.andThen_ok, hof, Bool.false_eq_true, if_false]
      have hnoop : o.addElems L.toList 1 = (o, none) := by
        apply addElems_noop
        intro i x hx
        rw [hs1, ofList_toList'] at hx
        rw [Nat.add_comm]; exact hs3 i x hx
      have hk := kinded_ofList p3.asp hs2
      rw [← hs1] at hk
      cases L with
      | tup l =>
        have hk : 2 ≤ o.aspects := hk
        simp only [LKey.toList] at hnoop
        simp only [hk, if_true, hnoop, Outcome.andThen_ok]
      | el x =>
        have hk : o.aspects = 1 := hk
        simp only [LKey.toList] at hnoop
        simp only [hk, if_true, hnoop, Outcome.andThen_ok]
    rw [hreg]
    simp only [Outcome.andThen_ok]
    obtain ⟨r1, r2⟩ := regLayer_spec p3 n L
    obtain ⟨r3, r4⟩ := regLayer_spec r1 n L
    refine ⟨trivial, r3, ((eo.trans r2).trans r4).congr ?_ ?_ ?_⟩
    · intro a x; simp
    · intro _ L' m; simp
    · intro m L'; simp

theorem Eff.kid_fic {p q : MPlex α W} {dS dK dR} (e : Eff p q dS dK dR) (hq : q.P0)
    (hf : p.fic = true) (L : LKey α) (n : α) :
    q.kid L n ↔ (q.child? L).isSome = true ∧ (p.inSlice 0 n ∨ dS 0 n) := by
  rw [fic_kid (by rw [e.par.2.2.2.1]; exact hf), head_inSlice (by rw [hq.slen]; omega), e.sl]

theorem ensureChild_spec {p : MPlex α W} (h : p.P0) {L : LKey α} {c : MNet α W} (hc : p.child? L = some c)
    {n : α} (hn : p.inSlice 0 n) (hr : p.fic = false → p.reg n L) :
    (p.ensureChild L n).2 = none ∧ (p.ensureChild L n).1.P0 ∧
    Eff p (p.ensureChild L n).1 (fun _ _ => False) (fun L' m => L' = L ∧ m = n) (fun _ _ => False) := by
  unfold ensureChild
  simp only [hc]
  by_cases hm : n ∈ c.slices.headD []
  · simp only [hm, if_true]
    refine ⟨by simp, h, (Eff.refl p).congr (fun _ _ => Iff.rfl) ?_ (fun _ _ => Iff.rfl)⟩
    intro _ L' m
    constructor
    · rintro (h | h)
      · exact Or.inl h
      · exact h.elim
    · rintro (h | ⟨rfl, rfl⟩)
      · exact Or.inl h
      · exact Or.inl ⟨c, hc, hm⟩
  · simp only [hm, if_false]
    obtain ⟨a1, a2, a3⟩ := childAddNode_spec h hc n
    refine ⟨a1, a2, a3.congr ?_ (fun _ _ _ => Iff.rfl) ?_⟩
    · intro a x
      constructor
      · rintro (h | ⟨rfl, rfl⟩)
        · exact Or.inl h
        · exact Or.inl hn
      · rintro (h | h)
        · exact Or.inl h
        · exact h.elim
    · intro m L'
      constructor
      · rintro (h | ⟨hf, rfl, rfl⟩)
        · exact Or.inl h
        · exact Or.inl (hr hf)
      · rintro (h | h)
        · exact Or.inl h
        · exact h.elim

theorem addNode_spec {p : MPlex α W} (h : p.PInv) (n : α) (layer : Option (LKey α)) :
    (p.addNode n layer).1.PInv ∧
    ((p.addNode n layer).2 = none ↔ ∀ L, layer = some L → p.fic = false →
      p.Kinded L ∧ L.toList.length = p.aspects) ∧
    Eff p (p.addNode n layer).1
      (fun a x => (a = 0 ∧ x = n) ∨ ∃ L, layer = some L ∧ p.fic = false ∧ p.Kinded L ∧ 1 ≤ a ∧ a ≤ p.aspects ∧
        L.toList[a - 1]? = some x)
      (fun L m => m = n ∧ layer = some L ∧ p.fic = false ∧ p.Kinded L ∧ L.toList.length = p.aspects)
      (fun m L => m = n ∧ layer = some L ∧ p.fic = false ∧ p.Kinded L ∧ L.toList.length ≤ p.aspects) := by
  obtain ⟨r1, r2, r3⟩ := regNode_spec h.core n layer
  have main : (p.addNode n layer).1.P0 ∧
    ((p.addNode n layer).2 = none ↔ ∀ L, layer = some L → p.fic = false →
      p.Kinded L ∧ L.toList.length = p.aspects) ∧
    Eff p (p.addNode n layer).1
      (fun a x => (a = 0 ∧ x = n) ∨ ∃ L, layer = some L ∧ p.fic = false ∧ p.Kinded L ∧ 1 ≤ a ∧ a ≤ p.aspects ∧
        L.toList[a - 1]? = some x)
      (fun L m => m = n ∧ layer = some L ∧ p.fic = false ∧ p.Kinded L ∧ L.toList.length = p.aspects)
      (fun m L => m = n ∧ layer = some L ∧ p.fic = false ∧ p.Kinded L ∧ L.toList.length ≤ p.aspects) := by
    unfold addNode
    cases hr : (p.regNode n layer).2 with
    | some e =>
      have : (p.regNode n layer) = ((p.regNode n layer).1, some e) := by rw [← hr]
      rw [this]
      simp only [Outcome.andThen_err]
      have hb : ¬ ∀ L, layer = some L → p.fic = false → p.Kinded L ∧ L.toList.length ≤ p.aspects := by
        intro hb; rw [r2.2 hb] at hr; cases hr
      refine ⟨r1, ?_, r3.congr (fun _ _ => Iff.rfl) ?_ (fun _ _ => Iff.rfl)⟩
      · simp only [reduceCtorEq, false_iff]
        intro hb'
        exact hb fun L h1 h2 => ⟨(hb' L h1 h2).1, (hb' L h1 h2).2.le⟩
      · intro hf L m
        constructor
        · rintro (h | h)
          · exact Or.inl h
          · exact h.elim
        · rintro (h | ⟨-, e, -, h1, h2⟩)
          · exact Or.inl h
          · refine absurd ?_ hb
            intro L' e' _
            rw [e] at e'; cases e'; exact ⟨h1, h2.le⟩
    | none =>
      rw [Outcome.andThen_of_eq hr]
      have hb := r2.1 hr
      set q := (p.regNode n layer).1 with hq
      cases layer with
      | none =>
        simp only
        refine ⟨r1, by simp, r3.congr (fun _ _ => Iff.rfl) (fun _ _ _ => by simp) (fun _ _ => Iff.rfl)⟩
      | some L =>
        simp only [r3.par.2.2.2.1]
        cases hf : p.fic with
        | true =>
          simp only [if_true]
          refine ⟨r1, by simp, r3.congr (fun a x => ?_) (fun _ _ _ => by simp) (fun m L' => ?_)⟩
          · simp [hf]
          · simp [hf]
        | false =>
          simp only [Bool.false_eq_true, if_false]
          obtain ⟨k1, k2⟩ := hb L rfl hf
          have hfq : q.fic = false := by rw [r3.par.2.2.2.1]; exact hf
          by_cases hlen : L.toList.length = p.aspects
          · have hcs : (q.child? L).isSome = true := by
              rw [r1.akeys]
              refine ⟨L.toList, ofList_of_kinded k1 hlen, by rw [hlen, r3.par.1], ?_⟩
              intro i x hx
              rw [r3.sl]
              have := (List.getElem?_eq_some_iff.1 hx).1
              exact Or.inr (Or.inr ⟨L, rfl, hf, k1, by omega, by omega, by simpa using hx⟩)
            obtain ⟨c, hc⟩ := Option.isSome_iff_exists.1 hcs
            obtain ⟨e1, e2, e3⟩ := ensureChild_spec r1 hc (n := n)
              ((r3.sl 0 n).2 (Or.inr (Or.inl ⟨rfl, rfl⟩)))
              (fun _ => (r3.rg n L).2 (Or.inr ⟨rfl, rfl, hf, k1, k2⟩))
            refine ⟨e2, by simp [e1, k1, hlen], (r3.trans e3).congr ?_ ?_ ?_⟩
            · intro a x; simp [hf]
            · intro _ L' m; simp
              constructor
              · rintro (h | ⟨rfl, rfl⟩)
                · exact Or.inl h
                · exact Or.inr ⟨rfl, rfl, k1, hlen⟩
              · rintro (h | ⟨rfl, rfl, -⟩)
                · exact Or.inl h
                · exact Or.inr ⟨rfl, rfl⟩
            · intro m L'; simp [hf]
          · have hcs : q.child? L = none := by
              cases hc : q.child? L with
              | none => rfl
              | some c =>
                obtain ⟨s, hs1, hs2, -⟩ := (r1.akeys L).1 (by rw [hc]; rfl)
                rw [hs1, ofList_toList', hs2, r3.par.1] at hlen
                exact absurd rfl hlen
            unfold ensureChild
            simp only [hcs]
            refine ⟨r1, by simp [k1, hlen], r3.congr (fun a x => by simp [hf]) ?_ (fun m L' => by simp [hf])⟩
            intro _ L' m
            constructor
            · rintro (h | h)
              · exact Or.inl h
              · exact h.elim
            · rintro (h | ⟨-, e, -, -, h5⟩)
              · exact Or.inl h
              · cases e; exact absurd h5 hlen
  obtain ⟨m1, m2, m3⟩ := main
  refine ⟨h.of_eff m1 m3 ?_ ?_, m2, m3⟩
  · intro hf L m hL
    obtain ⟨s, hs1, hs2, -⟩ := (m1.akeys L).1 hL
    have : L.toList.length = p.aspects := by rw [hs1, ofList_toList', hs2, m3.par.1]
    simp [this]
  · rintro m L ⟨rfl, rfl, hf, hk, hlen⟩
    refine ⟨hf, ?_⟩
    by_cases hl : L.toList.length = p.aspects
    · left
      have : (p.addNode m (some L)).1.kid L m :=
        (m3.kd hf L m).2 (Or.inr ⟨rfl, rfl, hf, hk, hl⟩)
      obtain ⟨c, hc, -⟩ := this
      rw [hc]; rfl
    · right
      cases L with
      | el x => simp only [Kinded] at hk; simp [LKey.toList, hk] at hl
      | tup l => exact ⟨hk, by omega⟩

theorem addLayer_zero {p : MPlex α W} (h : p.PInv) (x : α) :
    (p.addLayer x 0).1.PInv ∧ (p.addLayer x 0).2 = none ∧
    Eff p (p.addLayer x 0).1 (fun a y => a = 0 ∧ y = x) (fun _ _ => False) (fun _ _ => False) := by
  have hl : 0 < p.slices.length := by rw [h.core.slen]; omega
  obtain ⟨s, hs⟩ : ∃ s, p.slices[0]? = some s := ⟨_, List.getElem?_eq_getElem hl⟩
  unfold addLayer
  simp only [if_true, hs]
  by_cases hx : x ∈ s
  · simp only [hx, if_true]
    refine ⟨h, by simp, (Eff.refl p).congr ?_ (fun _ _ _ => Iff.rfl) (fun _ _ => Iff.rfl)⟩
    intro a y
    constructor
    · rintro (h | h)
      · exact Or.inl h
      · exact h.elim
    · rintro (h | ⟨rfl, rfl⟩)
      · exact Or.inl h
      · exact Or.inl ⟨s, hs, hx⟩
  · simp only [hx, if_false]
    obtain ⟨a1, a2, a3⟩ := addNode_spec h x none
    refine ⟨a1, a2.2 (by simp), a3.congr ?_ ?_ ?_⟩
    · intro a y; simp
    · intro _ _ _; simp
    · intro _ _; simp

theorem addElem_inv {p : MPlex α W} (h : p.PInv) (l : α) {a : Nat} (h1 : 1 ≤ a) : (p.addElem l a).1.PInv := by
  obtain ⟨e1, e2, e3, e4⟩ := addElem_spec h.core l h1
  by_cases ha : a ≤ p.aspects
  · exact h.of_eff e1 (e3 ha) (by simp) (by simp)
  · rw [e4 ha]; exact h

theorem addLayer_inv {p : MPlex α W} (h : p.PInv) (x : α) (a : Nat) : (p.addLayer x a).1.PInv := by
  by_cases ha : a = 0
  · subst ha; exact (addLayer_zero h x).1
  · unfold addLayer
    rw [if_neg ha]
    exact addElem_inv h x (by omega)

theorem addLayer_pos {p : MPlex α W} (h : p.PInv) (x : α) {a : Nat} (h1 : 1 ≤ a) (h2 : a ≤ p.aspects) :
    (p.addLayer x a).1.PInv ∧ (p.addLayer x a).2 = none ∧
    Eff p (p.addLayer x a).1 (fun b y => b = a ∧ y = x) (fun _ _ => False) (fun _ _ => False) := by
  refine ⟨addLayer_inv h x a, ?_⟩
  unfold addLayer
  rw [if_neg (by omega)]
  obtain ⟨e1, e2, e3, e4⟩ := addElem_spec h.core x h1
  exact ⟨e2.2 h2, e3 h2⟩

theorem addLinkLayers_spec (s t : List α) (hst : s.length = t.length) {p : MPlex α W} (h : p.PInv) {a : Nat}
    (h1 : 1 ≤ a) (h2 : a + s.length ≤ p.aspects + 1) :
    (p.addLinkLayers (interleave s t) a).1.PInv ∧ (p.addLinkLayers (interleave s t) a).2 = none ∧
    Eff p (p.addLinkLayers (interleave s t) a).1
      (fun b y => a ≤ b ∧ (s[b - a]? = some y ∨ t[b - a]? = some y)) (fun _ _ => False) (fun _ _ => False) := by
  induction s generalizing t p a with
  | nil =>
    cases t with
    | cons _ _ => simp at hst
    | nil =>
      refine ⟨h, rfl, (Eff.refl p).congr ?_ (fun _ _ _ => Iff.rfl) (fun _ _ => Iff.rfl)⟩
      intro b y; simp
  | cons x s ih =>
    cases t with
    | nil => simp at hst
    | cons y t =>
      simp only [List.length_cons] at h2
      obtain ⟨a1, a2, a3⟩ := addLayer_pos h x h1 (by omega)
      obtain ⟨b1, b2, b3⟩ := addLayer_pos a1 y h1 (by rw [a3.par.1]; omega)
      obtain ⟨c1, c2, c3⟩ := ih t (by simpa using hst) b1 (a := a + 1) (by omega)
        (by rw [b3.par.1, a3.par.1]; omega)
      simp only [interleave, addLinkLayers]
      rw [Outcome.andThen_of_eq a2, Outcome.andThen_of_eq b2]
      refine ⟨c1, c2, ((a3.trans b3).trans c3).congr ?_ (fun _ _ _ => by simp) (fun _ _ => by simp)⟩
      intro b z
      refine or_congr_right ?_
      by_cases hb : b = a
      · subst hb
        have : ¬ b + 1 ≤ b := by omega
        simp [this, eq_comm]
      · constructor
        · rintro ((h | h) | ⟨h3, h4⟩)
          · exact absurd h.1 hb
          · exact absurd h.1 hb
          · refine ⟨by omega, ?_⟩
            rw [show b - a = (b - (a + 1)) + 1 by omega]
            simpa using h4
        · rintro ⟨h3, h4⟩
          rw [show b - a = (b - (a + 1)) + 1 by omega] at h4
          exact Or.inr ⟨by omega, by simpa using h4⟩

/-- registration phase of `__setitem__` -/
theorem register_spec {p : MPlex α W} (h : p.PInv) (i j : α) (s t : List α) (hs : s.length = p.aspects)
    (ht : t.length = p.aspects) :
    let r := (p.addLinkNodes (interleave (i :: s) (j :: t))).andThen fun p =>
      p.addLinkLayers ((interleave (i :: s) (j :: t)).drop 2) 1
    r.1.PInv ∧ r.2 = none ∧
    Eff p r.1 (fun a x => (i :: s)[a]? = some x ∨ (j :: t)[a]? = some x)
      (fun L n => (L = .ofList s ∧ n = i) ∨ (L = .ofList t ∧ n = j))
      (fun n L => p.fic = false ∧ ((L = .ofList s ∧ n = i) ∨ (L = .ofList t ∧ n = j))) := by
  have hst : s.length = t.length := hs.trans ht.symm
  have ha := h.core.asp
  have hnodes : (p.addLinkNodes (interleave (i :: s) (j :: t))).1.PInv ∧
      (p.addLinkNodes (interleave (i :: s) (j :: t))).2 = none ∧
      ∃ dS : Nat → α → Prop, (∀ a x, dS a x → (i :: s)[a]? = some x ∨ (j :: t)[a]? = some x) ∧
      (∀ x, dS 0 x ↔ x = i ∨ x = j) ∧
      Eff p (p.addLinkNodes (interleave (i :: s) (j :: t))).1 dS
      (fun L n => (L = .ofList s ∧ n = i) ∨ (L = .ofList t ∧ n = j))
      (fun n L => p.fic = false ∧ ((L = .ofList s ∧ n = i) ∨ (L = .ofList t ∧ n = j))) := by
    unfold addLinkNodes
    simp only [interleave]
    cases hf : p.fic with
    | true =>
      simp only [if_true]
      obtain ⟨a1, a2, a3⟩ := addLayer_zero h i
      obtain ⟨b1, b2, b3⟩ := addLayer_zero a1 j
      rw [Outcome.andThen_of_eq a2]
      refine ⟨b1, b2, _, ?_, ?_, (a3.trans b3).congr (fun _ _ => Iff.rfl) (fun hf' => ?_) (fun _ _ => by simp)⟩
      · rintro a x (⟨rfl, rfl⟩ | ⟨rfl, rfl⟩) <;> simp
      · intro x; simp
      · rw [hf] at hf'; cases hf'
    | false =>
      simp only [Bool.false_eq_true, if_false]
      rw [evens_interleave hst, odds_interleave hst]
      obtain ⟨a1, a2, a3⟩ := addNode_spec h i (some (.ofList s))
      obtain ⟨b1, b2, b3⟩ := addNode_spec a1 j (some (.ofList t))
      have ks := kinded_ofList ha hs
      have kt := kinded_ofList ha ht
      have kt' : (p.addNode i (some (.ofList s))).1.Kinded (.ofList t) :=
        kinded_ofList a1.core.asp (ht.trans a3.par.1.symm)
      have a2' := a2.2 (by intro L hL _; cases hL; exact ⟨ks, by rw [ofList_toList', hs]⟩)
      have b2' := b2.2 (by
        intro L hL _; cases hL
        exact ⟨kt', by rw [ofList_toList', ht, a3.par.1]⟩)
      have hf' : (p.addNode i (some (.ofList s))).1.fic = false := by rw [a3.par.2.2.2.1]; exact hf
      rw [Outcome.andThen_of_eq a2']
      refine ⟨b1, b2', _, ?_, ?_, (a3.trans b3).congr (fun _ _ => Iff.rfl) ?_ ?_⟩
      · intro a x hx
        rcases hx with (⟨rfl, rfl⟩ | ⟨L, e, -, -, h4, h5, h6⟩) | (⟨rfl, rfl⟩ | ⟨L, e, -, -, h4, h5, h6⟩)
        · simp
        · cases e
          rw [ofList_toList'] at h6
          left
          rw [show a = (a - 1) + 1 by omega, List.getElem?_cons_succ]; exact h6
        · simp
        · cases e
          rw [ofList_toList'] at h6
          right
          rw [show a = (a - 1) + 1 by omega, List.getElem?_cons_succ]; exact h6
      · intro x; simp
      · intro _ L n
        refine or_congr_right (or_congr ?_ ?_)
        · constructor
          · rintro ⟨h1, h2, -⟩; cases h2; exact ⟨rfl, h1⟩
          · rintro ⟨h1, h2⟩; subst h1; exact ⟨h2, rfl, hf, ks, by rw [ofList_toList', hs]⟩
        · constructor
          · rintro ⟨h1, h2, -⟩; cases h2; exact ⟨rfl, h1⟩
          · rintro ⟨h1, h2⟩; subst h1; exact ⟨h2, rfl, hf', kt', by rw [ofList_toList', ht, a3.par.1]⟩
      · intro n L
        simp only [true_and]
        refine or_congr_right (or_congr ?_ ?_)
        · constructor
          · rintro ⟨h1, h2, -⟩; cases h2; exact ⟨rfl, h1⟩
          · rintro ⟨h1, h2⟩; subst h1; exact ⟨h2, rfl, hf, ks, by rw [ofList_toList', hs]⟩
        · constructor
          · rintro ⟨h1, h2, -⟩; cases h2; exact ⟨rfl, h1⟩
          · rintro ⟨h1, h2⟩; subst h1; exact ⟨h2, rfl, hf', kt', by rw [ofList_toList', ht, a3.par.1]⟩
  obtain ⟨n1, n2, dS, d1, d0, n3⟩ := hnodes
  obtain ⟨l1, l2, l3⟩ := addLinkLayers_spec s t hst n1 (a := 1) (Nat.le_refl 1) (by rw [n3.par.1]; omega)
  simp only
  rw [Outcome.andThen_of_eq n2]
  have hdrop : (interleave (i :: s) (j :: t)).drop 2 = interleave s t := rfl
  rw [hdrop]
  refine ⟨l1, l2, (n3.trans l3).congr ?_ (fun _ _ _ => by simp) (fun _ _ => by simp)⟩
  intro a x
  refine or_congr_right ?_
  cases a with
  | zero => simp [d0, eq_comm]
  | succ a =>
    constructor
    · rintro (h | ⟨-, h⟩)
      · exact d1 _ _ h
      · simpa using h
    · intro h; exact Or.inr ⟨by omega, by simpa using h⟩

end MPlex

end Pymnet
