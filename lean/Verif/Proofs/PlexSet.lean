import Verif.Proofs.PlexOps

set_option linter.unusedSectionVars false
set_option linter.unusedSimpArgs false
set_option linter.unnecessarySimpa false

namespace Pymnet

open Py

namespace MPlex

variable {α W : Type} [DecidableEq α] [DecidableEq W] [Zero W]

/-- the two orientations of one link of an intra-layer network -/
def SameA (p : MPlex α W) (i j a b : α) : Prop := (a = i ∧ b = j) ∨ (p.directed = false ∧ a = j ∧ b = i)

theorem kid_setLink {p : MPlex α W} {c : MNet α W} (h : p.KidOk c) {i j : α} (hi : i ∈ c.slices.headD [])
    (hj : j ∈ c.slices.headD []) (w : W) : c.setItem [i, j] w = c.setLink [i, j] w := by
  have hc := MNet.headD_of_inv h.inv.r h.asp
  have hf := h.inv.r.fic0 h.asp
  have hadd : ∀ x ∈ c.slices.headD [], c.addLayer x 0 = (c, none) := by
    intro x hx
    unfold MNet.addLayer
    rw [if_pos rfl]
    unfold MNet.addNode MNet.sliceAdd
    have hl : 0 < c.slices.length := by rw [hc]; simp
    rw [if_pos hl]
    simp only [Outcome.andThen_ok, Prod.mk.injEq, and_true]
    have : c.slices.modify 0 (sadd · x) = c.slices := by
      rw [hc]; simp only [List.modify_zero_cons]
      unfold sadd; rw [if_pos hx]
    rw [this]
  unfold MNet.setItem
  simp only [h.asp]
  rw [if_pos (by simp)]
  simp only [List.length_cons, List.length_nil, if_true, MNet.addLinkNodes, hf]
  rw [hadd i hi, Outcome.andThen_ok, hadd j hj, Outcome.andThen_ok]
  simp [MNet.addLinkLayers]

/-- the effect of a link write through `net.A[L]` -/
theorem childSetItem_spec {p : MPlex α W} (h : p.P0) {L : LKey α} {c : MNet α W} (hc : p.child? L = some c)
    (i j : α) (w : W) :
    let q := (p.childSetItem L i j w).1
    (p.childSetItem L i j w).2 =
      (if w = 0 ∧ p.directed = false ∧ i = j ∧ (p.lkA L [i] [j]).isSome = true then some .keyError else none) ∧
    q.P0 ∧
    (q.aspects = p.aspects ∧ q.directed = p.directed ∧ q.noEdge = p.noEdge ∧ q.fic = p.fic ∧
      q.couplings = p.couplings) ∧
    (∀ a x, q.inSlice a x ↔ p.inSlice a x ∨ (a = 0 ∧ (x = i ∨ x = j))) ∧
    (∀ n L', q.reg n L' ↔ p.reg n L' ∨ (p.fic = false ∧ L' = L ∧ (n = i ∨ n = j))) ∧
    (p.fic = false → ∀ L' n, q.kid L' n ↔ p.kid L' n ∨ (L' = L ∧ (n = i ∨ n = j))) ∧
    (∀ L', (q.child? L').isSome = (p.child? L').isSome) ∧
    (∀ L' a b, q.lkA L' [a] [b] =
      (open Classical in if L' = L ∧ p.SameA i j a b then (if w = 0 then none else some w)
        else p.lkA L' [a] [b])) := by
  classical
  obtain ⟨a1, a2, a3⟩ := childAddNode_spec h hc i
  obtain ⟨S, hS⟩ := a3.old L c hc
  obtain ⟨b1, b2, b3⟩ := childAddNode_spec a2 hS j
  obtain ⟨S', hS'⟩ := b3.old L _ hS
  have e := a3.trans b3
  unfold childSetItem
  rw [Outcome.andThen_of_eq a1, Outcome.andThen_of_eq b1]
  set q := ((p.childAddNode L i).1.childAddNode L j).1 with hq
  obtain ⟨q1, q2, q3, q4, q5⟩ := e.par
  unfold childSetLink
  simp only [hS']
  set d : MNet α W := { c with slices := S' } with hd
  have hdk := b2.kids L _ hS'
  have hki : i ∈ d.slices.headD [] ∧ j ∈ d.slices.headD [] := by
    have hk : q.kid L i ∧ q.kid L j := by
      cases hf : p.fic with
      | true =>
        rw [e.kid_fic b2 hf, e.kid_fic b2 hf, hS']
        exact ⟨⟨rfl, Or.inr (Or.inl ⟨rfl, rfl⟩)⟩, ⟨rfl, Or.inr (Or.inr ⟨rfl, rfl⟩)⟩⟩
      | false =>
        exact ⟨(e.kd hf L i).2 (Or.inr (Or.inl ⟨rfl, rfl⟩)), (e.kd hf L j).2 (Or.inr (Or.inr ⟨rfl, rfl⟩))⟩
    obtain ⟨⟨c1, h1, h2⟩, ⟨c2, h3, h4⟩⟩ := hk
    rw [hS'] at h1 h3; cases h1; cases h3; exact ⟨h2, h4⟩
  have hset := kid_setLink hdk hki.1 hki.2 w
  have hadr : Spec.Addresses d.aspects [i, j] [i] [j] := by
    rw [hdk.asp]; exact ⟨rfl, rfl, Or.inl rfl⟩
  obtain ⟨t1, t2, t3, t4, t5, t6, t7, t8, t9, t10⟩ := MNet.setItem_spec hdk.inv hadr w
  obtain ⟨-, lf, -⟩ := MNet.setLink_spec hdk.inv.l (u := [i]) (v := [j]) rfl (by simp) w
  have hil : interleave [i] [j] = [i, j] := rfl
  rw [hil] at lf
  rw [hset] at t1 t2 t3 t4 t5 t6 t7 t8 t9 t10
  set d' := (d.setLink [i, j] w).1 with hd'
  have hsl : d'.slices = d.slices := lf.fields.2.2.2.2.1
  have hk' : q.KidOk d' := ⟨t2, t3.trans hdk.asp, t4.trans hdk.dir, t5.trans hdk.ne⟩
  obtain ⟨p1, p2, p3⟩ := putChild_spec b2 hS' hk' (by
    intro x hx; rw [hsl] at hx; exact b2.ksub L x ⟨_, hS', hx⟩) (fun _ => hsl)
  have hlk : p.lkA L [i] [j] = d.lk [i] [j] := by
    rw [← e.lkA_eq]; simp [lkA, hS']
  have hdd : d.directed = p.directed := hdk.dir.trans q2
  have hdn : d.noEdge = 0 := hdk.ne
  have hkid : ∀ L' n, (q.putChild L d').kid L' n ↔ q.kid L' n := by
    intro L' n
    unfold kid
    rw [p2]
    split
    · rename_i e'; subst e'; simp [hsl, hS']
    · rfl
  refine ⟨?_, p3, ?_, ?_, ?_, ?_, ?_, ?_⟩
  · rw [t1, hdn, hdd, hlk]; simp
  · rw [p1]; exact ⟨q1, q2, q3, q4, q5⟩
  · intro a x
    have : (q.putChild L d').inSlice a x ↔ q.inSlice a x := by rw [p1]; rfl
    rw [this, e.sl, ← and_or_left]
  · intro n L'
    have : (q.putChild L d').reg n L' ↔ q.reg n L' := by rw [p1]; rfl
    rw [this, e.rg, a3.par.2.2.2.1]
    refine or_congr_right ?_
    constructor
    · rintro (⟨h1, rfl, rfl⟩ | ⟨h1, rfl, rfl⟩)
      · exact ⟨h1, rfl, Or.inl rfl⟩
      · exact ⟨h1, rfl, Or.inr rfl⟩
    · rintro ⟨h1, rfl, rfl | rfl⟩
      · exact Or.inl ⟨h1, rfl, rfl⟩
      · exact Or.inr ⟨h1, rfl, rfl⟩
  · intro hf L' n
    rw [hkid, e.kd hf, ← and_or_left]
  · intro L'
    have hqp : (q.child? L').isSome = (p.child? L').isSome := by
      rw [Bool.eq_iff_iff, b2.akeys, h.akeys, q1]
      constructor
      · rintro ⟨s, e1, e2, e3⟩
        refine ⟨s, e1, e2, fun k x hx => ?_⟩
        rcases (e.sl _ _).1 (e3 k x hx) with h1 | ⟨h1, -⟩ | ⟨h1, -⟩
        · exact h1
        · omega
        · omega
      · rintro ⟨s, e1, e2, e3⟩
        exact ⟨s, e1, e2, fun k x hx => (e.sl _ _).2 (Or.inl (e3 k x hx))⟩
    rw [p2]
    split
    · rename_i e'; subst e'; rw [hc]; rfl
    · exact hqp
  · intro L' a b
    by_cases hL : L = L'
    · subst hL
      have h1 : (q.putChild L d').lkA L [a] [b] = d'.lk [a] [b] := by simp [lkA, p2]
      have h2 : p.lkA L [a] [b] = d.lk [a] [b] := by rw [← e.lkA_eq]; simp [lkA, hS']
      rw [h1, h2, t7, hdn]
      have hs : d.Same [i] [j] [a] [b] ↔ p.SameA i j a b := by simp [MNet.Same, SameA, hdd]
      simp only [hs, true_and]
    · have : ¬ L' = L := fun e' => hL e'.symm
      have h1 : (q.putChild L d').lkA L' [a] [b] = q.lkA L' [a] [b] := by simp [lkA, p2, hL]
      rw [h1, e.lkA_eq]
      simp [this]

theorem childSetItem_none {p : MPlex α W} {L : LKey α} (hc : p.child? L = none) (i j : α) (w : W) :
    p.childSetItem L i j w = (p, some .keyError) := by
  unfold childSetItem childAddNode
  simp [hc]

/-! ### `interAspects` -/

omit [DecidableEq W] [Zero W] in
theorem interAspects_interleave_gt (s t : List α) (d k : Nat) (h : k ∈ interAspects (interleave s t) d) :
    d ≤ k := by
  induction s generalizing t d with
  | nil => cases t <;> simp [interleave, interAspects] at h
  | cons x s ih =>
    cases t with
    | nil => simp [interleave, interAspects] at h
    | cons y t =>
      simp only [interleave, interAspects] at h
      split at h
      · rcases List.mem_cons.1 h with rfl | h
        · exact Nat.le_refl _
        · exact Nat.le_of_succ_le (ih t (d + 1) h)
      · exact Nat.le_of_succ_le (ih t (d + 1) h)

omit [DecidableEq W] [Zero W] in
theorem interAspects_eq_nil {s t : List α} (hst : s.length = t.length) (d : Nat) :
    interAspects (interleave s t) d = [] ↔ s = t := by
  induction s generalizing t d with
  | nil =>
    cases t with
    | nil => simp [interleave, interAspects]
    | cons _ _ => simp at hst
  | cons x s ih =>
    cases t with
    | nil => simp at hst
    | cons y t =>
      simp only [interleave, interAspects]
      by_cases hxy : x = y
      · simp [hxy, ih (by simpa using hst)]
      · simp [hxy]

omit [DecidableEq W] [Zero W] in
/-- exactly one differing position `d+k` -/
theorem interAspects_eq_singleton {s t : List α} (hst : s.length = t.length) (d k : Nat) :
    interAspects (interleave s t) d = [d + k] ↔ s[k]? ≠ t[k]? ∧ ∀ i, i ≠ k → s[i]? = t[i]? := by
  induction s generalizing t d k with
  | nil =>
    cases t with
    | nil => simp [interleave, interAspects]
    | cons _ _ => simp at hst
  | cons x s ih =>
    cases t with
    | nil => simp at hst
    | cons y t =>
      have hst' : s.length = t.length := by simpa using hst
      simp only [interleave, interAspects]
      cases k with
      | zero =>
        by_cases hxy : x = y
        · subst hxy
          simp only [ne_eq, not_true, if_false, List.getElem?_cons_zero, false_and, iff_false]
          intro h
          have := interAspects_interleave_gt s t (d + 1) d (by rw [h]; simp)
          omega
        · rw [if_pos hxy]
          simp only [Nat.add_zero, List.cons.injEq, true_and, interAspects_eq_nil hst']
          constructor
          · rintro rfl
            refine ⟨by simpa using hxy, fun i hi => ?_⟩
            cases i with
            | zero => exact absurd rfl hi
            | succ i => rfl
          · rintro ⟨-, h⟩
            apply List.ext_getElem?
            intro i
            simpa using h (i + 1) (by omega)
      | succ k =>
        by_cases hxy : x = y
        · subst hxy
          simp only [ne_eq, not_true, if_false]
          rw [show d + (k + 1) = (d + 1) + k by omega, ih hst']
          simp only [List.getElem?_cons_succ]
          refine and_congr_right fun _ => ?_
          constructor
          · intro h i hi
            cases i with
            | zero => rfl
            | succ i => simpa using h i (by omega)
          · intro h i hi; simpa using h (i + 1) (by omega)
        · rw [if_pos hxy]
          constructor
          · intro h; simp at h
          · rintro ⟨-, h⟩
            have := h 0 (by omega)
            simp at this; exact absurd this hxy

omit [DecidableEq W] [Zero W] in
theorem interAspects_zero {i j : α} {s t : List α} (hst : s.length = t.length) :
    interAspects (interleave (i :: s) (j :: t)) 0 = [0] ↔ i ≠ j ∧ s = t := by
  simp only [interleave, interAspects]
  by_cases hij : i = j
  · subst hij
    simp only [ne_eq, not_true, if_false, false_and, iff_false]
    intro h
    have := interAspects_interleave_gt s t 1 0 (by rw [h]; simp)
    omega
  · rw [if_pos hij]
    simp [interAspects_eq_nil hst, hij]

/-! ### The full write -/

/-- the effect of `net[item]=w` -/
theorem setItem_spec {p : MPlex α W} (h : p.PInv) {item : List α} {i j : α} {s t : List α}
    (ha : Spec.Addresses p.aspects item (i :: s) (j :: t)) (w : W) :
    let q := (p.setItem item w).1
    (p.setItem item w).2 = (if i ≠ j ∧ s = t then none else some .keyError) ∧
    q.PInv ∧
    (q.aspects = p.aspects ∧ q.directed = p.directed ∧ q.noEdge = p.noEdge ∧ q.fic = p.fic ∧
      q.couplings = p.couplings) ∧
    (∀ a x, q.inSlice a x ↔ p.inSlice a x ∨ (i :: s)[a]? = some x ∨ (j :: t)[a]? = some x) ∧
    (∀ n L, q.reg n L ↔ p.reg n L ∨
      (p.fic = false ∧ ((L = .ofList s ∧ n = i) ∨ (L = .ofList t ∧ n = j)))) ∧
    (p.fic = false → ∀ L n, q.kid L n ↔ p.kid L n ∨ (L = .ofList s ∧ n = i) ∨ (L = .ofList t ∧ n = j)) ∧
    (∀ L, (p.child? L).isSome = true → (q.child? L).isSome = true) ∧
    (∀ L a b, q.lkA L [a] [b] =
      (open Classical in if (i ≠ j ∧ s = t) ∧ L = .ofList s ∧ p.SameA i j a b
        then (if w = 0 then none else some w) else p.lkA L [a] [b])) := by
  classical
  have hlen := addresses_length ha
  have hu := ha.1
  have hv := ha.2.1
  have hs : s.length = p.aspects := by simpa using hu
  have ht : t.length = p.aspects := by simpa using hv
  have hst : s.length = t.length := hs.trans ht.symm
  have hlink : (if item.length = 2 * (p.aspects + 1) then item else shortLinkToLink item) =
      interleave (i :: s) (j :: t) := (addresses_iff.1 ha).2.2.2
  obtain ⟨r1, r2, r3⟩ := register_spec h i j s t hs ht
  unfold setItem
  simp only [hlen, if_true, hlink]
  rw [Outcome.andThen_of_eq r2]
  set r := ((p.addLinkNodes (interleave (i :: s) (j :: t))).andThen fun p =>
      p.addLinkLayers ((interleave (i :: s) (j :: t)).drop 2) 1).1 with hr
  obtain ⟨q1, q2, q3, q4, q5⟩ := r3.par
  by_cases hok : i ≠ j ∧ s = t
  · have hint := (interAspects_zero hst).2 hok
    obtain ⟨hij, rfl⟩ := hok
    have hsl : r.setLink (interleave (i :: s) (j :: s)) w = r.childSetItem (.ofList s) i j w := by
      change interAspects (i :: j :: interleave s s) 0 = [0] at hint
      change r.setLink (i :: j :: interleave s s) w = _
      unfold setLink
      simp only
      rw [if_pos hint, evens_interleave rfl]
    rw [hsl]
    have hcs : (r.child? (.ofList s)).isSome = true := by
      rw [r1.core.akeys]
      exact ⟨s, rfl, hs.trans q1.symm, fun k x hx => (r3.sl _ _).2 (Or.inr (Or.inl (by simpa using hx)))⟩
    obtain ⟨c, hc⟩ := Option.isSome_iff_exists.1 hcs
    obtain ⟨c1, c2, ⟨c3a, c3b, c3c, c3d, c3e⟩, c4, c5, c6, c7, c8⟩ := childSetItem_spec r1.core hc i j w
    have i0 : r.inSlice 0 i := (r3.sl _ _).2 (Or.inr (Or.inl rfl))
    have j0 : r.inSlice 0 j := (r3.sl _ _).2 (Or.inr (Or.inr rfl))
    have hsl' : ∀ a x, (r.childSetItem (.ofList s) i j w).1.inSlice a x ↔ r.inSlice a x := by
      intro a x
      rw [c4]
      constructor
      · rintro (h | ⟨rfl, rfl | rfl⟩)
        · exact h
        · exact i0
        · exact j0
      · exact Or.inl
    have hrg : ∀ n L, (r.childSetItem (.ofList s) i j w).1.reg n L ↔ r.reg n L := by
      intro n L
      rw [c5]
      constructor
      · rintro (h | ⟨hf, rfl, rfl | rfl⟩)
        · exact h
        · exact (r3.rg _ _).2 (Or.inr ⟨by rw [← q4]; exact hf, Or.inl ⟨rfl, rfl⟩⟩)
        · exact (r3.rg _ _).2 (Or.inr ⟨by rw [← q4]; exact hf, Or.inr ⟨rfl, rfl⟩⟩)
      · exact Or.inl
    have hkd : p.fic = false → ∀ L n, (r.childSetItem (.ofList s) i j w).1.kid L n ↔ r.kid L n := by
      intro hf L n
      rw [c6 (by rw [q4]; exact hf)]
      constructor
      · rintro (h | ⟨rfl, rfl | rfl⟩)
        · exact h
        · exact (r3.kd hf _ _).2 (Or.inr (Or.inl ⟨rfl, rfl⟩))
        · exact (r3.kd hf _ _).2 (Or.inr (Or.inr ⟨rfl, rfl⟩))
      · exact Or.inl
    refine ⟨?_, ⟨c2, ?_, ?_⟩, ⟨c3a.trans q1, c3b.trans q2, c3c.trans q3, c3d.trans q4, c3e.trans q5⟩, ?_, ?_, ?_, ?_, ?_⟩
    · rw [c1]; simp [hij]
    · intro hf L n hL
      have hf' : p.fic = false := by rw [← q4, ← c3d]; exact hf
      rw [hkd hf', hrg]
      exact r1.regs (by rw [q4]; exact hf') L n (by rw [← c7]; exact hL)
    · intro n L hL
      rw [hrg] at hL
      rw [c7, c3a, c3d]
      exact r1.rkey n L hL
    · intro a x; rw [hsl', r3.sl]
    · intro n L; rw [hrg, r3.rg]
    · intro hf L n; rw [hkd hf, r3.kd hf]
    · intro L hL; rw [c7]; exact r3.isSome L hL
    · intro L a b
      rw [c8, r3.lkA_eq]
      have : r.SameA i j a b ↔ p.SameA i j a b := by simp [SameA, q2]
      simp [this, hij]
  · have hint : interAspects (interleave (i :: s) (j :: t)) 0 ≠ [0] := fun e => hok ((interAspects_zero hst).1 e)
    have hsl : r.setLink (interleave (i :: s) (j :: t)) w = (r, some .keyError) := by
      change interAspects (i :: j :: interleave s t) 0 ≠ [0] at hint
      change r.setLink (i :: j :: interleave s t) w = _
      unfold setLink
      simp only
      rw [if_neg hint]
    rw [hsl]
    refine ⟨by simp only [hok, if_false], r1, ⟨q1, q2, q3, q4, q5⟩, r3.sl, r3.rg, r3.kd, r3.isSome, ?_⟩
    intro L a b
    rw [r3.lkA_eq]
    simp only [hok, false_and, if_false]

theorem setItem_arity (p : MPlex α W) {item : List α}
    (hl : ¬ (item.length = 2 * (p.aspects + 1) ∨ item.length = p.aspects + 2)) (w : W) :
    p.setItem item w = (p, some .keyError) := by
  unfold setItem
  simp only
  rw [if_neg hl]

/-! ### Histories -/

theorem init_pinv (cs : List (Coupling α W)) (hcs : cs ≠ []) (directed : Bool) (ne : W) (fic : Bool) :
    (init cs directed ne fic).PInv := by
  have hc : ∀ L, (init cs directed ne fic).child? L = none := by intro L; rfl
  have hin : ∀ a x, ¬ (init cs directed ne fic).inSlice a x := by
    rintro a x ⟨s, hs, hx⟩
    simp only [init] at hs
    rw [List.getElem?_replicate] at hs
    split at hs
    · cases hs; cases hx
    · cases hs
  have hlen : 1 ≤ cs.length := List.length_pos_iff.2 hcs
  refine ⟨⟨hlen, by simp [init], ?_, rfl, ?_, ?_, ?_, ?_⟩, ?_, ?_⟩
  · intro s hs; simp [init] at hs; subst hs; simp
  · intro L
    rw [hc]
    simp only [Option.isSome_none, Bool.false_eq_true, false_iff]
    rintro ⟨s, -, h1, h2⟩
    have : s.length = cs.length := h1
    exact hin 1 (s[0]'(by omega)) (h2 0 _ (by simp))
  · intro L c h; rw [hc] at h; cases h
  · rintro L n ⟨c, h, -⟩; rw [hc] at h; cases h
  · intro n; simp [init]
  · intro _ L n h; rw [hc] at h; cases h
  · intro n L h; simp [reg, init] at h

theorem childAddNode_inv {p : MPlex α W} (h : p.PInv) (L : LKey α) (n : α) : (p.childAddNode L n).1.PInv := by
  cases hc : p.child? L with
  | none => unfold childAddNode; simp only [hc]; exact h
  | some c =>
    obtain ⟨a1, a2, a3⟩ := childAddNode_spec h.core hc n
    refine h.of_eff a2 a3 ?_ ?_
    · intro hf L' m _; simp only [hf, true_and]; exact and_comm
    · rintro m L' ⟨hf, rfl, rfl⟩
      exact ⟨hf, Or.inl (a3.isSome _ (by rw [hc]; rfl))⟩

theorem childSetItem_inv {p : MPlex α W} (h : p.PInv) (L : LKey α) (i j : α) (w : W) :
    (p.childSetItem L i j w).1.PInv := by
  cases hc : p.child? L with
  | none => rw [childSetItem_none hc]; exact h
  | some c =>
    obtain ⟨c1, c2, ⟨c3a, c3b, c3c, c3d, c3e⟩, c4, c5, c6, c7, c8⟩ := childSetItem_spec h.core hc i j w
    refine ⟨c2, ?_, ?_⟩
    · intro hf L' n hL
      rw [c3d] at hf
      rw [c7] at hL
      rw [c6 hf, c5, h.regs hf L' n hL]
      simp [hf]
    · intro n L' hL
      rw [c7, c3a, c3d]
      rcases (c5 n L').1 hL with h1 | ⟨hf, rfl, -⟩
      · exact h.rkey n L' h1
      · exact ⟨hf, Or.inl (by rw [hc]; rfl)⟩

theorem exists_addr (p : MPlex α W) {item : List α}
    (hl : item.length = 2 * (p.aspects + 1) ∨ item.length = p.aspects + 2) :
    ∃ i s j t, Spec.Addresses p.aspects item (i :: s) (j :: t) := by
  obtain ⟨u, v, h⟩ := exists_addresses hl
  match u, v, h with
  | i :: s, j :: t, h => exact ⟨i, s, j, t, h⟩
  | [], _, h => have := h.1; simp at this
  | _ :: _, [], h => have := h.2.1; simp at this

theorem step_pinv {p : MPlex α W} (h : p.PInv) (op : POp α W) : (p.step op).1.PInv := by
  cases op with
  | addNode n l => exact (addNode_spec h n l).1
  | addLayer l a => exact addLayer_inv h l a
  | setItem item w =>
    by_cases hl : item.length = 2 * (p.aspects + 1) ∨ item.length = p.aspects + 2
    · obtain ⟨i, s, j, t, ha⟩ := exists_addr p hl
      exact (setItem_spec h ha w).2.1
    · simp only [step]; rw [setItem_arity p hl]; exact h
  | intraAddNode L n => exact childAddNode_inv h L n
  | intraSet L i j w => exact childSetItem_inv h L i j w

theorem run_pinv {p : MPlex α W} (h : p.PInv) (ops : List (POp α W)) : (p.run ops).PInv := by
  induction ops generalizing p with
  | nil => exact h
  | cons op ops ih => exact ih (step_pinv h op)

theorem run_snoc (p : MPlex α W) (ops : List (POp α W)) (op : POp α W) :
    p.run (ops ++ [op]) = ((p.run ops).step op).1 := by
  simp [run]

end MPlex

end Pymnet
