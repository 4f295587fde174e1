import Verif.Model.Plex
import Verif.Proofs.View
import Verif.Proofs.History

set_option linter.unusedSectionVars false
set_option linter.unusedSimpArgs false
set_option linter.unnecessarySimpa false

namespace Pymnet

open Py

theorem MNet.headD_of_inv {α W : Type} [DecidableEq α] [DecidableEq W] {c : MNet α W} (h : c.RInv)
    (ha : c.aspects = 0) : c.slices = [c.slices.headD []] := by
  have := h.slen
  rw [ha] at this
  match hs : c.slices, this with
  | [x], _ => rfl

namespace MPlex

variable {α W : Type} [DecidableEq α] [DecidableEq W]

/-- `x` is registered in aspect `a` -/
def inSlice (p : MPlex α W) (a : Nat) (x : α) : Prop := ∃ s, p.slices[a]? = some s ∧ x ∈ s

/-- the parent registry puts node `n` on layer `L` -/
def reg (p : MPlex α W) (n : α) (L : LKey α) : Prop := L ∈ (Dict.get p.nodeToLayers n).getD []

/-- node `n` is in the intra-layer network `L` -/
def kid (p : MPlex α W) (L : LKey α) (n : α) : Prop := ∃ c, p.child? L = some c ∧ n ∈ c.slices.headD []

/-- stored link of the intra-layer network `L` -/
def lkA (p : MPlex α W) (L : LKey α) (a b : List α) : Option W := (p.child? L).bind fun c => c.lk a b

variable [Zero W]

/-- invariants of one intra-layer network -/
structure KidOk (p : MPlex α W) (c : MNet α W) : Prop where
  inv : c.Inv
  asp : c.aspects = 0
  dir : c.directed = p.directed
  ne : c.noEdge = 0

/-- core invariant -/
structure P0 (p : MPlex α W) : Prop where
  asp : 1 ≤ p.aspects
  slen : p.slices.length = p.aspects + 1
  snodup : ∀ s ∈ p.slices, s.Nodup
  clen : p.couplings.length = p.aspects
  akeys : ∀ L, (p.child? L).isSome = true ↔ ∃ s : List α, L = .ofList s ∧ s.length = p.aspects ∧
    ∀ i x, s[i]? = some x → p.inSlice (i + 1) x
  kids : ∀ L c, p.child? L = some c → p.KidOk c
  ksub : ∀ L n, p.kid L n → p.inSlice 0 n
  rnodup : ∀ n, ((Dict.get p.nodeToLayers n).getD []).Nodup

/-- full invariant -/
structure PInv (p : MPlex α W) : Prop where
  core : p.P0
  regs : p.fic = false → ∀ L n, (p.child? L).isSome = true → (p.kid L n ↔ p.reg n L)
  rkey : ∀ n L, p.reg n L → p.fic = false ∧ ((p.child? L).isSome = true ∨ (2 ≤ p.aspects ∧ L.toList.length < p.aspects))

/-- exact effect of a registration: what is added to the slices, to the intra-layer node sets (networks
that are not node-aligned) and to the registry; links untouched, new layers empty. -/
structure Eff (p q : MPlex α W) (dS : Nat → α → Prop) (dK : LKey α → α → Prop) (dR : α → LKey α → Prop) :
    Prop where
  par : q.aspects = p.aspects ∧ q.directed = p.directed ∧ q.noEdge = p.noEdge ∧ q.fic = p.fic ∧
    q.couplings = p.couplings
  sl : ∀ a x, q.inSlice a x ↔ p.inSlice a x ∨ dS a x
  rg : ∀ n L, q.reg n L ↔ p.reg n L ∨ dR n L
  kd : p.fic = false → ∀ L n, q.kid L n ↔ p.kid L n ∨ dK L n
  old : ∀ L c, p.child? L = some c → ∃ S, q.child? L = some { c with slices := S }
  new : ∀ L c, p.child? L = none → q.child? L = some c →
    ∃ S, c = { (MNet.init 0 0 p.directed true : MNet α W) with slices := S }

omit [Zero W] in
theorem fic_kid {p : MPlex α W} (hf : p.fic = true) (L : LKey α) (n : α) :
    p.kid L n ↔ (p.child? L).isSome = true ∧ n ∈ p.slices.headD [] := by
  unfold kid child?
  cases Dict.get p.A L with
  | none => simp
  | some c => simp [hf]

theorem Eff.refl (p : MPlex α W) : Eff p p (fun _ _ => False) (fun _ _ => False) (fun _ _ => False) := by
  refine ⟨⟨rfl, rfl, rfl, rfl, rfl⟩, by simp, by simp, by simp, fun L c h => ⟨c.slices, h⟩, ?_⟩
  intro L c h h'; rw [h] at h'; cases h'

theorem Eff.trans {p q r : MPlex α W} {dS dS' dK dK' dR dR'} (h : Eff p q dS dK dR) (h' : Eff q r dS' dK' dR') :
    Eff p r (fun a x => dS a x ∨ dS' a x) (fun L n => dK L n ∨ dK' L n) (fun n L => dR n L ∨ dR' n L) := by
  obtain ⟨p1, p2, p3, p4, p5⟩ := h.par
  obtain ⟨q1, q2, q3, q4, q5⟩ := h'.par
  refine ⟨⟨q1.trans p1, q2.trans p2, q3.trans p3, q4.trans p4, q5.trans p5⟩, ?_, ?_, ?_, ?_, ?_⟩
  · intro a x; rw [h'.sl, h.sl, or_assoc]
  · intro a x; rw [h'.rg, h.rg, or_assoc]
  · intro hf a x; rw [h'.kd (by rw [p4]; exact hf), h.kd hf, or_assoc]
  · intro L c hc
    obtain ⟨S, hS⟩ := h.old L c hc
    obtain ⟨S', hS'⟩ := h'.old L _ hS
    exact ⟨S', hS'⟩
  · intro L c h1 h2
    cases hq : q.child? L with
    | none =>
      obtain ⟨S, e⟩ := h'.new L c hq h2
      rw [p2] at e; exact ⟨S, e⟩
    | some d =>
      obtain ⟨S, e⟩ := h.new L d h1 hq
      obtain ⟨S', e'⟩ := h'.old L d hq
      rw [h2] at e'; cases e'
      exact ⟨S', by rw [e]⟩

theorem Eff.congr {p q : MPlex α W} {dS dS' dK dK' dR dR'} (h : Eff p q dS dK dR)
    (h1 : ∀ a x, p.inSlice a x ∨ dS a x ↔ p.inSlice a x ∨ dS' a x)
    (h2 : p.fic = false → ∀ L n, p.kid L n ∨ dK L n ↔ p.kid L n ∨ dK' L n)
    (h3 : ∀ n L, p.reg n L ∨ dR n L ↔ p.reg n L ∨ dR' n L) : Eff p q dS' dK' dR' :=
  ⟨h.par, fun a x => (h.sl a x).trans (h1 a x), fun n L => (h.rg n L).trans (h3 n L),
   fun hf L n => (h.kd hf L n).trans (h2 hf L n), h.old, h.new⟩

theorem Eff.lkA_eq {p q : MPlex α W} {dS dK dR} (h : Eff p q dS dK dR) (L : LKey α) (a b : List α) :
    q.lkA L a b = p.lkA L a b := by
  unfold lkA
  cases hp : p.child? L with
  | some c =>
    obtain ⟨S, hS⟩ := h.old L c hp
    rw [hS]; rfl
  | none =>
    cases hq : q.child? L with
    | none => rfl
    | some c =>
      obtain ⟨S, e⟩ := h.new L c hp hq
      subst e; simp [MNet.lk, MNet.init, get2]

theorem Eff.isSome {p q : MPlex α W} {dS dK dR} (h : Eff p q dS dK dR) (L : LKey α)
    (hp : (p.child? L).isSome = true) : (q.child? L).isSome = true := by
  obtain ⟨c, hc⟩ := Option.isSome_iff_exists.1 hp
  obtain ⟨S, hS⟩ := h.old L c hc
  rw [hS]; rfl

/-! ### Intra-layer networks with a changed node set -/

omit [Zero W] in
theorem kid_inv {c : MNet α W} (h : c.Inv) (ha : c.aspects = 0) {S : List α} (hn : S.Nodup)
    (hs : ∀ x ∈ c.slices.headD [], x ∈ S) : ({ c with slices := [S] } : MNet α W).Inv := by
  have hc := MNet.headD_of_inv h.r ha
  have hno : ∀ n L, ¬ c.onLayer n L := by
    intro n L hL
    have := (h.r.nlkind n L hL).1
    rw [h.r.fic0 ha] at this; cases this
  refine h.of_grows ⟨rfl, ?_, fun n L hL => hL⟩ ⟨by simp [ha], by simpa using hn, h.r.fic0, h.r.n2l,
    h.r.n2lnodup, h.r.l2nnodup, fun n L hL => absurd hL (hno n L), fun n L hL => absurd hL (hno n L)⟩
  rintro b y ⟨s, h1, h2⟩
  rw [hc] at h1
  match b, h1 with
  | 0, h1 => simp at h1; subst h1; exact ⟨S, rfl, hs y (by simpa using h2)⟩

theorem KidOk.grow {p q : MPlex α W} {c : MNet α W} (h : p.KidOk c) (hd : q.directed = p.directed)
    {S : List α} (hn : S.Nodup) (hs : ∀ x ∈ c.slices.headD [], x ∈ S) :
    q.KidOk { c with slices := [S] } :=
  ⟨kid_inv h.inv h.asp hn hs, h.asp, h.dir.trans hd.symm, h.ne⟩

theorem KidOk.init (p : MPlex α W) {S : List α} (hn : S.Nodup) :
    p.KidOk { (MNet.init 0 0 p.directed true : MNet α W) with slices := [S] } := by
  have : p.KidOk (MNet.init 0 0 p.directed true : MNet α W) := ⟨MNet.init_inv .., rfl, rfl, rfl⟩
  exact this.grow rfl hn (by simp [MNet.init])

omit [Zero W] in
theorem head_inSlice {p : MPlex α W} (hl : 0 < p.slices.length) (x : α) :
    x ∈ p.slices.headD [] ↔ p.inSlice 0 x := by
  unfold inSlice
  match hs : p.slices, hl with
  | s :: t, _ => simp

omit [Zero W] in
theorem head_nodup {p : MPlex α W} (h : ∀ s ∈ p.slices, s.Nodup) : (p.slices.headD []).Nodup := by
  match hs : p.slices with
  | [] => simp
  | s :: t => exact h s (by simp [hs])

/-- a raw change of the slices by `sliceAdd` -/
theorem sliceAdd_raw (p : MPlex α W) (a : Nat) (x : α) (hl : a < p.slices.length) :
    (p.sliceAdd a x).2 = none ∧
    (p.sliceAdd a x).1 = { p with slices := p.slices.modify a (sadd · x) } ∧
    (∀ b y, (p.sliceAdd a x).1.inSlice b y ↔ p.inSlice b y ∨ (b = a ∧ y = x)) ∧
    ((∀ s ∈ p.slices, s.Nodup) → ∀ s ∈ (p.sliceAdd a x).1.slices, s.Nodup) := by
  unfold sliceAdd
  rw [if_pos hl]
  refine ⟨rfl, rfl, ?_, ?_⟩
  · intro b y
    simp only [inSlice, List.getElem?_modify]
    by_cases hb : a = b
    · subst hb
      obtain ⟨s, hs⟩ : ∃ s, p.slices[a]? = some s := ⟨_, List.getElem?_eq_getElem hl⟩
      simp [hs]
    · have : ¬ b = a := fun e => hb e.symm
      simp [hb, this]
  · intro h s hs
    simp only at hs
    obtain ⟨i, hi⟩ := List.mem_iff_getElem?.1 hs
    rw [List.getElem?_modify] at hi
    cases e : p.slices[i]? with
    | none => simp [e] at hi
    | some t =>
      have ht : t.Nodup := h t (List.mem_iff_getElem?.2 ⟨i, e⟩)
      simp [e] at hi; subst hi
      split
      · exact nodup_sadd ht x
      · exact ht

/-- adding a node to the parent's node set -/
theorem sliceAdd_zero {p : MPlex α W} (h : p.P0) (x : α) :
    (p.sliceAdd 0 x).2 = none ∧ (p.sliceAdd 0 x).1.P0 ∧
    Eff p (p.sliceAdd 0 x).1 (fun a y => a = 0 ∧ y = x) (fun _ _ => False) (fun _ _ => False) := by
  have hl : 0 < p.slices.length := by rw [h.slen]; omega
  obtain ⟨r1, r2, r3, r4⟩ := sliceAdd_raw p 0 x hl
  set q := (p.sliceAdd 0 x).1 with hq
  have hhead : q.slices.headD [] = sadd (p.slices.headD []) x := by
    rw [r2]
    match hs : p.slices, hl with
    | s :: t, _ => simp [hs, List.modify]
  have hqA : q.A = p.A := by rw [r2]
  have hqf : q.fic = p.fic := by rw [r2]
  have hqd : q.directed = p.directed := by rw [r2]
  have hqa : q.aspects = p.aspects := by rw [r2]
  have hqn : q.nodeToLayers = p.nodeToLayers := by rw [r2]
  have hql : q.slices.length = p.slices.length := by rw [r2]; simp
  have hchild : ∀ L, q.child? L = (p.child? L).map fun c =>
      if p.fic then { c with slices := [sadd (p.slices.headD []) x] } else c := by
    intro L
    unfold child?
    rw [hqA, hqf, hhead]
    cases Dict.get p.A L with
    | none => rfl
    | some c => by_cases hf : p.fic <;> simp [hf]
  have hsome : ∀ L, (q.child? L).isSome = (p.child? L).isSome := by
    intro L; rw [hchild]; cases p.child? L <;> rfl
  have hkid : p.fic = false → ∀ L n, q.kid L n ↔ p.kid L n := by
    intro hf L n
    unfold kid
    rw [hchild]; simp [hf]
  refine ⟨r1, ⟨by rw [hqa]; exact h.asp, ?_, r4 h.snodup, ?_, ?_, ?_, ?_, ?_⟩, ⟨?_, r3, ?_, ?_, ?_, ?_⟩⟩
  · rw [hql, hqa]; exact h.slen
  · rw [r2]; exact h.clen
  · intro L
    rw [hsome, h.akeys, hqa]
    simp only [r3]
    simp
  · intro L c hc
    rw [hchild] at hc
    cases hp : p.child? L with
    | none => rw [hp] at hc; cases hc
    | some d =>
      rw [hp] at hc
      have hd := h.kids L d hp
      by_cases hf : p.fic
      · simp only [Option.map_some, hf, if_true, Option.some.injEq] at hc; subst hc
        refine hd.grow hqd (nodup_sadd (head_nodup h.snodup) x) ?_
        intro y hy
        rw [mem_sadd, head_inSlice hl]
        exact Or.inl (h.ksub L y ⟨d, hp, hy⟩)
      · simp [hf] at hc; subst hc
        exact ⟨hd.inv, hd.asp, hd.dir.trans hqd.symm, hd.ne⟩
  · intro L n hn
    rw [r3]
    by_cases hf : p.fic
    · rw [fic_kid (by rw [hqf]; exact hf), hhead, mem_sadd, head_inSlice hl] at hn
      rcases hn.2 with h1 | h1
      · exact Or.inl h1
      · exact Or.inr ⟨rfl, h1⟩
    · simp at hf
      exact Or.inl (h.ksub L n ((hkid hf L n).1 hn))
  · rw [hqn]; exact h.rnodup
  · rw [r2]; exact ⟨rfl, rfl, rfl, rfl, rfl⟩
  · intro n L; simp [reg, hqn]
  · intro hf L n; simp [hkid hf]
  · intro L c hc
    rw [hchild, hc]
    by_cases hf : p.fic
    · exact ⟨[sadd (p.slices.headD []) x], by simp [hf]⟩
    · exact ⟨c.slices, by simp [hf]⟩
  · intro L c h1 h2
    rw [hchild, h1] at h2; cases h2

theorem regLayer_spec {p : MPlex α W} (h : p.P0) (n : α) (L : LKey α) :
    (p.regLayer n L).P0 ∧
    Eff p (p.regLayer n L) (fun _ _ => False) (fun _ _ => False) (fun n' L' => n' = n ∧ L' = L) := by
  have hreg : ∀ n' , (Dict.get (p.regLayer n L).nodeToLayers n').getD [] =
      if n = n' then sadd ((Dict.get p.nodeToLayers n).getD []) L else (Dict.get p.nodeToLayers n').getD [] := by
    intro n'
    unfold regLayer
    simp only [Dict.get_set]
    split <;> simp
  refine ⟨⟨h.asp, h.slen, h.snodup, h.clen, h.akeys,
    fun L c hc => ⟨(h.kids L c hc).inv, (h.kids L c hc).asp, (h.kids L c hc).dir, (h.kids L c hc).ne⟩, h.ksub, ?_⟩, ⟨⟨rfl, rfl, rfl, rfl, rfl⟩, ?_, ?_, ?_, ?_, ?_⟩⟩
  · intro n'
    rw [hreg]; split
    · exact nodup_sadd (h.rnodup n) L
    · exact h.rnodup n'
  · intro a x; simp; rfl
  · intro n' L'
    unfold reg
    rw [hreg]
    by_cases e : n = n'
    · subst e; simp
    · have : ¬ n' = n := fun e' => e e'.symm
      simp [e, this]
  · intro _ L' n'; simp; rfl
  · intro L' c hc; exact ⟨c.slices, hc⟩
  · intro L' c h1 h2
    change p.child? L' = _ at h2
    rw [h1] at h2; cases h2

/-! ### New elementary layers -/

theorem foldl_addEmpty (ks : List (List α)) (p : MPlex α W) :
    ks.foldl (fun p s => p.addEmpty (.ofList s)) p =
      { p with A := ks.foldl (fun A s => Dict.set A (.ofList s) (MNet.init 0 0 p.directed true)) p.A } := by
  induction ks generalizing p with
  | nil => rfl
  | cons k ks ih => rw [List.foldl_cons, ih]; rfl

theorem get_foldl_set {κ ν β : Type} [DecidableEq κ] (f : β → κ) (v : ν) (ks : List β) (A : Dict κ ν) (L : κ) :
    Dict.get (ks.foldl (fun A s => Dict.set A (f s) v) A) L =
      if ∃ s ∈ ks, f s = L then some v else Dict.get A L := by
  induction ks generalizing A with
  | nil => simp
  | cons k ks ih =>
    rw [List.foldl_cons, ih, Dict.get_set]
    by_cases h1 : ∃ s ∈ ks, f s = L
    · rw [if_pos h1, if_pos]
      obtain ⟨s, h2, h3⟩ := h1; exact ⟨s, by simp [h2], h3⟩
    · rw [if_neg h1]
      by_cases h2 : f k = L
      · rw [if_pos h2, if_pos ⟨k, by simp, h2⟩]
      · rw [if_neg h2, if_neg]
        rintro ⟨s, h3, h4⟩
        rcases List.mem_cons.1 h3 with rfl | h3
        · exact h2 h4
        · exact h1 ⟨s, h3, h4⟩

theorem mem_new_slices {p : MPlex α W} (hl : p.slices.length = p.aspects + 1) {a : Nat} (h1 : 1 ≤ a)
    (l : α) (s : List α) :
    s ∈ product ((p.slices.drop 1).set (a - 1) [l]) ↔
      s.length = p.aspects ∧ ∀ i x, s[i]? = some x → (if i + 1 = a then x = l else p.inSlice (i + 1) x) := by
  rw [mem_product, MNet.forall₂_iff_getElem, List.length_set, List.length_drop, hl, Nat.add_sub_cancel]
  refine and_congr_right fun hs => ?_
  constructor
  · intro h i x hx
    have hi : i + 1 < p.slices.length := by
      have := (List.getElem?_eq_some_iff.1 hx).1
      omega
    by_cases he : i + 1 = a
    · have hy := h i x [l] hx (by
        rw [List.getElem?_set, if_pos (by omega)]
        simp; omega)
      simpa [he] using hy
    · rw [if_neg he]
      refine ⟨p.slices[i + 1], by simp [hi], h i x _ hx ?_⟩
      rw [List.getElem?_set_ne (by omega)]
      simp [Nat.add_comm 1 i, hi]
  · intro h i x y hx hy
    have h' := h i x hx
    by_cases he : i + 1 = a
    · rw [if_pos he] at h'
      rw [List.getElem?_set, if_pos (by omega)] at hy
      split at hy
      · cases hy; simp [h']
      · cases hy
    · rw [if_neg he] at h'
      rw [List.getElem?_set_ne (by omega), List.getElem?_drop] at hy
      obtain ⟨t, ht, hx'⟩ := h'
      rw [Nat.add_comm] at hy
      rw [hy] at ht; cases ht; exact hx'

omit [DecidableEq α] [DecidableEq W] [Zero W] in
theorem ofList_toList' (l : List α) : (LKey.ofList l).toList = l := by
  match l with
  | [] => rfl
  | [_] => rfl
  | _ :: _ :: _ => rfl

omit [DecidableEq α] [DecidableEq W] [Zero W] in
theorem ofList_inj' {l l' : List α} (h : LKey.ofList l = LKey.ofList l') : l = l' := by
  rw [← ofList_toList' l, ← ofList_toList' l', h]

theorem addElem_spec {p : MPlex α W} (h : p.P0) (l : α) {a : Nat} (h1 : 1 ≤ a) :
    (p.addElem l a).1.P0 ∧
    ((p.addElem l a).2 = none ↔ a ≤ p.aspects) ∧
    (a ≤ p.aspects → Eff p (p.addElem l a).1 (fun b y => b = a ∧ y = l) (fun _ _ => False) (fun _ _ => False)) ∧
    (¬ a ≤ p.aspects → (p.addElem l a).1 = p) := by
  classical
  unfold addElem
  cases hs : p.slices[a]? with
  | none =>
    have : p.slices.length ≤ a := List.getElem?_eq_none_iff.1 hs
    rw [h.slen] at this
    refine ⟨h, ?_, fun h' => by omega, fun _ => rfl⟩
    simp; omega
  | some s =>
    have hlt : a < p.slices.length := (List.getElem?_eq_some_iff.1 hs).1
    have hle : a ≤ p.aspects := by rw [h.slen] at hlt; omega
    by_cases hm : l ∈ s
    · simp only [hm, if_true]
      refine ⟨h, by simp [hle], fun _ => ?_, fun hh => absurd hle hh⟩
      refine (Eff.refl p).congr ?_ (fun _ _ _ => Iff.rfl) (fun _ _ => Iff.rfl)
      intro b y
      constructor
      · rintro (h | h)
        · exact Or.inl h
        · exact h.elim
      · rintro (h | ⟨rfl, rfl⟩)
        · exact Or.inl h
        · exact Or.inl ⟨s, hs, hm⟩
    · simp only [hm, if_false]
      rw [foldl_addEmpty]
      set p1 : MPlex α W := { p with
        A := List.foldl (fun A s => Dict.set A (.ofList s) (MNet.init 0 0 p.directed true)) p.A
          (product ((p.slices.drop 1).set (a - 1) [l])) } with hp1
      obtain ⟨r1, r2, r3, r4⟩ := sliceAdd_raw p1 a l (by exact hlt)
      set q := (p1.sliceAdd a l).1 with hq
      have r3' : ∀ b y, q.inSlice b y ↔ p.inSlice b y ∨ (b = a ∧ y = l) := r3
      have hqA : q.A = p1.A := by rw [r2]
      have hqf : q.fic = p.fic := by rw [r2]
      have hqd : q.directed = p.directed := by rw [r2]
      have hqa : q.aspects = p.aspects := by rw [r2]
      have hqn : q.nodeToLayers = p.nodeToLayers := by rw [r2]
      have hql : q.slices.length = p.slices.length := by rw [r2]; simp [hp1]
      have hhead : q.slices.headD [] = p.slices.headD [] := by
        rw [r2]
        match hs : p.slices, a, h1 with
        | [], _, _ => simp [hp1, hs]
        | s :: t, a + 1, _ => simp [hp1, hs, List.modify]
      have hnl : ¬ p.inSlice a l := by
        rintro ⟨t, ht, hl⟩; rw [hs] at ht; cases ht; exact hm hl
      have fresh : ∀ s ∈ product ((p.slices.drop 1).set (a - 1) [l]), p.child? (.ofList s) = none := by
        intro s hs'
        rw [mem_new_slices h.slen h1] at hs'
        cases hc : p.child? (.ofList s) with
        | none => rfl
        | some c =>
          exfalso
          obtain ⟨t, e, ht, hin⟩ := (h.akeys (.ofList s)).1 (by rw [hc]; rfl)
          have := ofList_inj' e
          subst this
          have hlt' : a - 1 < s.length := by omega
          have := hs'.2 (a - 1) s[a - 1] (by simp [hlt'])
          rw [if_pos (by omega)] at this
          have h2 := hin (a - 1) s[a - 1] (by simp [hlt'])
          rw [this, Nat.sub_add_cancel h1] at h2
          exact hnl h2
      have getA : ∀ L, Dict.get q.A L = if ∃ s ∈ product ((p.slices.drop 1).set (a - 1) [l]), LKey.ofList s = L
          then some (MNet.init 0 0 p.directed true) else Dict.get p.A L := by
        intro L
        rw [hqA, hp1]
        convert get_foldl_set (LKey.ofList (α := α)) (MNet.init 0 0 p.directed true : MNet α W) _ p.A L
      have hchild : ∀ L, q.child? L = if ∃ s ∈ product ((p.slices.drop 1).set (a - 1) [l]), LKey.ofList s = L
          then some { (MNet.init 0 0 p.directed true : MNet α W) with
            slices := [if p.fic then p.slices.headD [] else []] } else p.child? L := by
        intro L
        unfold child?
        rw [getA, hqf, hhead]
        by_cases he : ∃ s ∈ product ((p.slices.drop 1).set (a - 1) [l]), LKey.ofList s = L
        · rw [if_pos he, if_pos he]
          by_cases hf : p.fic <;> simp [hf, MNet.init]
        · rw [if_neg he, if_neg he]
      refine ⟨⟨by rw [hqa]; exact h.asp, ?_, r4 h.snodup, ?_, ?_, ?_, ?_, ?_⟩, by simp [r1, hle], fun _ => ⟨?_, r3', ?_, ?_, ?_, ?_⟩,
        fun hh => absurd hle hh⟩
      · rw [hql, hqa]; exact h.slen
      · rw [r2]; exact h.clen
      · intro L
        rw [hchild, hqa]
        split
        · rename_i hc
          obtain ⟨s, hs', rfl⟩ := hc
          rw [mem_new_slices h.slen h1] at hs'
          simp only [Option.isSome_some, true_iff]
          refine ⟨s, rfl, hs'.1, ?_⟩
          intro i x hx
          rw [r3']
          have := hs'.2 i x hx
          split at this
          · rename_i e; exact Or.inr ⟨e, this⟩
          · exact Or.inl this
        · rename_i hc
          rw [h.akeys]
          constructor
          · rintro ⟨s, e1, e2, e3⟩
            exact ⟨s, e1, e2, fun i x hx => (r3' _ _).2 (Or.inl (e3 i x hx))⟩
          · rintro ⟨s, rfl, e2, e3⟩
            refine ⟨s, rfl, e2, fun i x hx => ?_⟩
            rcases (r3' _ _).1 (e3 i x hx) with h' | ⟨h', h''⟩
            · exact h'
            · exfalso
              apply hc
              refine ⟨s, (mem_new_slices h.slen h1 l s).2 ⟨e2, fun j y hy => ?_⟩, rfl⟩
              split
              · rename_i e
                have : i = j := by omega
                subst this
                rw [hx] at hy; cases hy; exact h''
              · rename_i e
                rcases (r3' _ _).1 (e3 j y hy) with k | ⟨k, -⟩
                · exact k
                · exact absurd k e
      · intro L c hc
        rw [hchild] at hc
        split at hc
        · cases hc
          have := KidOk.init q (S := if p.fic then p.slices.headD [] else []) (by
            split
            · exact head_nodup h.snodup
            · simp)
          rw [hqd] at this; exact this
        · have hd := h.kids L c hc
          exact ⟨hd.inv, hd.asp, hd.dir.trans hqd.symm, hd.ne⟩
      · rintro L n ⟨c, hc, hn⟩
        rw [r3']
        rw [hchild] at hc
        split at hc
        · cases hc
          simp only [List.headD_cons] at hn
          split at hn
          · exact Or.inl ((head_inSlice (by rw [h.slen]; omega) n).1 hn)
          · cases hn
        · exact Or.inl (h.ksub L n ⟨c, hc, hn⟩)
      · rw [hqn]; exact h.rnodup
      · rw [r2]; exact ⟨rfl, rfl, rfl, rfl, rfl⟩
      · intro n L; simp [reg, hqn]
      · intro hf L n
        unfold kid
        rw [hchild]
        split
        · rename_i hc
          obtain ⟨s, hs', rfl⟩ := hc
          rw [fresh s hs']
          simp [hf]
        · simp
      · intro L c hc
        rw [hchild]
        split
        · rename_i hex
          obtain ⟨s, hs', rfl⟩ := hex
          rw [fresh s hs'] at hc; cases hc
        · exact ⟨c.slices, hc⟩
      · intro L c hc hc'
        rw [hchild] at hc'
        split at hc'
        · cases hc'; exact ⟨_, rfl⟩
        · rw [hc] at hc'; cases hc'

theorem addElems_spec (ls : List α) {p : MPlex α W} (h : p.P0) {a : Nat} (h1 : 1 ≤ a) :
    (p.addElems ls a).1.P0 ∧
    ((p.addElems ls a).2 = none ↔ ls = [] ∨ a + ls.length ≤ p.aspects + 1) ∧
    Eff p (p.addElems ls a).1 (fun b y => a ≤ b ∧ b ≤ p.aspects ∧ ls[b - a]? = some y)
      (fun _ _ => False) (fun _ _ => False) := by
  induction ls generalizing p a with
  | nil =>
    refine ⟨h, by simp [addElems], (Eff.refl p).congr ?_ (fun _ _ _ => Iff.rfl) (fun _ _ => Iff.rfl)⟩
    intro b y; simp
  | cons l ls ih =>
    unfold addElems
    cases hs : p.slices[a]? with
    | none =>
      have : p.slices.length ≤ a := List.getElem?_eq_none_iff.1 hs
      rw [h.slen] at this
      refine ⟨h, by simp; omega, (Eff.refl p).congr ?_ (fun _ _ _ => Iff.rfl) (fun _ _ => Iff.rfl)⟩
      intro b y
      constructor
      · rintro (h | h)
        · exact Or.inl h
        · exact h.elim
      · rintro (h | h)
        · exact Or.inl h
        · omega
    | some s =>
      have hlt : a < p.slices.length := (List.getElem?_eq_some_iff.1 hs).1
      have hle : a ≤ p.aspects := by rw [h.slen] at hlt; omega
      have comb : ∀ b y, ((b = a ∧ y = l) ∨ (a + 1 ≤ b ∧ b ≤ p.aspects ∧ ls[b - (a + 1)]? = some y)) ↔
          (a ≤ b ∧ b ≤ p.aspects ∧ (l :: ls)[b - a]? = some y) := by
        intro b y
        by_cases hb : b = a
        · subst hb; simp [hle, eq_comm]
        · constructor
          · rintro (h | ⟨h1, h2, h3⟩)
            · exact absurd h.1 hb
            · refine ⟨by omega, h2, ?_⟩
              have : b - a = (b - (a + 1)) + 1 := by omega
              rw [this, List.getElem?_cons_succ]; exact h3
          · rintro ⟨h1, h2, h3⟩
            refine Or.inr ⟨by omega, h2, ?_⟩
            have : b - a = (b - (a + 1)) + 1 := by omega
            rw [this, List.getElem?_cons_succ] at h3; exact h3
      by_cases hl : l ∈ s
      · simp only [hl, if_true]
        obtain ⟨i1, i2, i3⟩ := ih h (a := a + 1) (by omega)
        refine ⟨i1, ?_, i3.congr ?_ (fun _ _ _ => Iff.rfl) (fun _ _ => Iff.rfl)⟩
        · rw [i2]; simp only [List.length_cons, reduceCtorEq, false_or]
          constructor
          · rintro (rfl | h)
            · simp; omega
            · omega
          · intro h; right; omega
        · intro b y
          rw [← comb]
          constructor
          · rintro (h | h)
            · exact Or.inl h
            · exact Or.inr (Or.inr h)
          · rintro (h | ⟨rfl, rfl⟩ | h)
            · exact Or.inl h
            · exact Or.inl ⟨s, hs, hl⟩
            · exact Or.inr h
      · simp only [hl, if_false]
        obtain ⟨e1, e2, e3, -⟩ := addElem_spec h l h1
        rw [Outcome.andThen_of_eq (e2.2 hle)]
        obtain ⟨i1, i2, i3⟩ := ih e1 (a := a + 1) (by omega)
        have e3 := e3 hle
        rw [e3.par.1] at i2 i3
        refine ⟨i1, ?_, (e3.trans i3).congr ?_ ?_ ?_⟩
        · rw [i2]; simp only [List.length_cons, reduceCtorEq, false_or]
          constructor
          · rintro (rfl | h)
            · simp; omega
            · omega
          · intro h; right; omega
        · intro b y; rw [← comb]
        · intro _ _ _; simp
        · intro _ _; simp

end MPlex

end Pymnet
