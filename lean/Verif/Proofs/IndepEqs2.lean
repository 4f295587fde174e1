import Verif.Proofs.IndepEqs

/-! Lemmas for C137: `independent_equations` without `xrange`. -/

set_option linter.unusedSectionVars false
set_option linter.unusedSimpArgs false
set_option linter.unusedVariables false

namespace Pymnet

open Py MPlex

theorem forE_head {s t : Type} (f : s → t → Except Err s) (x : t) (l : List t) (a : s) :
    forE f (x :: l) a = match f a x with | .error e => .error e | .ok b => forE f l b := by
  cases h : f a x <;> simp [forE, h, bind, Except.bind]

/-- an invariant holds after a loop that ends -/
theorem forE_keeps {s t : Type} {f : s → t → Except Err s} {P : s → Prop} (l : List t) {a b : s} (ha : P a)
    (hf : ∀ a x, x ∈ l → P a → ∀ b, f a x = .ok b → P b) (h : forE f l a = .ok b) : P b := by
  induction l generalizing a with
  | nil => cases h; exact ha
  | cons x l ih =>
    cases hx : f a x with
    | error e => rw [forE_head, hx] at h; cases h
    | ok a' =>
      rw [forE_head, hx] at h
      exact ih (hf a x (by simp) ha a' hx) (fun a y hy => hf a y (by simp [hy])) h

/-- a loop does not end if one of its rounds cannot -/
theorem forE_stops {s t : Type} {f : s → t → Except Err s} {P : s → Prop} (l : List t) {a : s} (ha : P a)
    (hf : ∀ a x, x ∈ l → P a → ∀ b, f a x = .ok b → P b) {x : t} (hx : x ∈ l) (hbad : ∀ a, P a → ∃ e, f a x = .error e) :
    ∃ e, forE f l a = .error e := by
  induction l generalizing a with
  | nil => cases hx
  | cons y l ih =>
    cases hy : f a y with
    | error e => exact ⟨e, by rw [forE_head, hy]⟩
    | ok a' =>
      rw [forE_head, hy]
      rcases List.mem_cons.1 hx with rfl | hx
      · obtain ⟨e, he⟩ := hbad a ha
        rw [he] at hy; cases hy
      · exact ih (hf a y (by simp) ha a' hy) (fun a z hz => hf a z (by simp [hz])) hx

section generic

variable {ω : Type} [DecidableEq ω] {q1 q2 : ω} {size : ω → Nat} {sub : ω → ω → Except Err Nat} {setEqs : Dict (EqKey ω) (List ω)}

/-- the orders of the orbits `q1`, `q1` and `q2` -/
def Perm3 (q1 q2 a b c : ω) : Prop := (a = q1 ∧ b = q1 ∧ c = q2) ∨ (a = q1 ∧ b = q2 ∧ c = q1) ∨ (a = q2 ∧ b = q1 ∧ c = q1)

/-- there is no equation for the orbits `q1`, `q1` and `q2` -/
def Clean (q1 q2 : ω) (net : EqNet ω) : Prop := ∀ a b c, Perm3 q1 q2 a b c → Dict.has net (some (.triple a b c)) = false

/-- the equation is not one of three orbits and not that of `q1` and `q2` -/
def Plain (q1 q2 : ω) (eq : EqKey ω) : Prop := (∀ a b c, eq ≠ .triple a b c) ∧ eq ≠ .pair q1 q2

theorem threeSets_square (hne : q1 ≠ q2) (hs : size q1 = size q2) (hsub : ∀ a b, ∃ e, sub a b = .error e) (eq : EqKey ω) :
    ∃ e, threeSets size sub eq q1 q1 q2 setEqs = .error e := by
  unfold threeSets
  rw [if_neg (by simp [hne]), if_pos rfl, if_neg (by omega)]
  obtain ⟨e, he⟩ := hsub q2 q1
  exact ⟨e, by rw [he]; rfl⟩

theorem threeSets_pair (hne : q1 ≠ q2) (hsub : ∀ a b, ∃ e, sub a b = .error e) (eq : EqKey ω) :
    ∃ e, threeSets size sub eq q2 q1 q1 setEqs = .error e := by
  unfold threeSets
  rw [if_neg (by simp [hne.symm]), if_neg hne.symm, if_pos rfl]
  obtain ⟨e, he⟩ := hsub q2 q1
  cases hf : foundWith q1 (some eq) [some eq] setEqs with
  | error e => exact ⟨e, rfl⟩
  | ok l => exact ⟨e, by simp only [bind, Except.bind]; rw [he]⟩

theorem three_step (hne : q1 ≠ q2) (hs : size q1 = size q2) (hsub : ∀ a b, ∃ e, sub a b = .error e) {eq : EqKey ω} (hp : Plain q1 q2 eq)
    {orbit : ω} {net net' : EqNet ω} {k : Option (EqKey ω)} (hc : Clean q1 q2 net)
    (h : threeOrbitEquations size sub eq orbit setEqs net = .ok (net', k)) : Clean q1 q2 net' := by
  unfold threeOrbitEquations at h
  simp only at h
  split at h
  · cases h; exact hc
  · split at h
    · cases h
    · rename_i l hl
      cases h
      intro a b c hperm
      rw [Dict.has, Dict.get_set]
      split
      · rename_i hk
        exfalso
        injection hk with hk
        injection hk with k1 k2 k3
        rw [← k1, ← k2, ← k3] at hperm
        rcases hperm with ⟨h1, h2, h3⟩ | ⟨h1, h2, h3⟩ | ⟨h1, h2, h3⟩
        · rw [h1, h2, h3] at hl
          obtain ⟨e, he⟩ := threeSets_pair (setEqs := setEqs) (size := size) hne hsub eq
          rw [he] at hl; cases hl
        · cases eq with
          | pair o1 o2 =>
            have e1 : o2 = q2 := h2
            have e2 : o1 = q1 := h3
            exact hp.2 (by rw [e1, e2])
          | square o =>
            have e1 : o = q2 := h2
            have e2 : o = q1 := h3
            exact hne (e2.symm.trans e1)
          | triple o1 o2 o3 => exact hp.1 _ _ _ rfl
        · rw [h1, h2, h3] at hl
          obtain ⟨e, he⟩ := threeSets_square (setEqs := setEqs) hne hs hsub eq
          rw [he] at hl; cases hl
      · exact hc a b c hperm

theorem three_bad (hne : q1 ≠ q2) (hs : size q1 = size q2) (hsub : ∀ a b, ∃ e, sub a b = .error e) {net : EqNet ω} (hc : Clean q1 q2 net) :
    ∃ e, threeOrbitEquations size sub (.square q1) q2 setEqs net = .error e := by
  unfold threeOrbitEquations
  simp only [EqKey.orbits2]
  rw [List.find?_eq_none.2 (by
    intro x hx
    simp only [keys3, List.mem_cons, List.not_mem_nil, or_false] at hx
    rcases hx with rfl | rfl | rfl | rfl | rfl | rfl <;> rw [hc _ _ _ (by simp [Perm3])] <;> simp)]
  simp only
  obtain ⟨e, he⟩ := threeSets_square (setEqs := setEqs) hne hs hsub (.square q1)
  exact ⟨e, by rw [he]⟩

theorem eqNetwork_clean (hne : q1 ≠ q2) (hs : size q1 = size q2) (hsub : ∀ a b, ∃ e, sub a b = .error e) {n : Nat} {undefined : List (EqKey ω)}
    (hu : ∀ k ∈ undefined, Plain q1 q2 k) (hk : ∀ k ∈ Dict.keys setEqs, Plain q1 q2 k) {net : EqNet ω}
    (h : eqNetwork size sub n undefined setEqs = .ok net) : Clean q1 q2 net := by
  unfold eqNetwork at h
  refine forE_keeps (P := Clean q1 q2) undefined (fun _ _ _ _ => rfl) ?_ h
  intro net un hun hc net' h
  unfold eqNetStep at h
  split at h
  · cases h
  · rename_i net1 deps h1
    cases h
    have : Clean q1 q2 net1 := by
      refine forE_keeps (P := fun st : EqNet ω × List (List (Option (EqKey ω))) => Clean q1 q2 st.1) un.sides hc ?_ h1
      intro st om hom hst st' h
      refine forE_keeps (P := fun st : EqNet ω × List (List (Option (EqKey ω))) => Clean q1 q2 st.1) setEqs hst ?_ h
      intro st p hp hst st' h
      unfold eqNetEq at h
      split at h
      · split at h
        · cases h; exact hst
        · split at h
          · cases h
          · rename_i net2 eq3 h2
            have hc2 := three_step hne hs hsub (hk p.1 (List.mem_map_of_mem hp)) hst h2
            split at h
            · cases h
            · simp only at h
              split at h <;> cases h <;> exact hc2
      · cases h; exact hst
    intro a b c hperm
    rw [Dict.has, Dict.get_set, if_neg]
    · exact this a b c hperm
    · intro e
      injection e with e
      exact (hu un hun).1 _ _ _ e

theorem threeLoop_keeps (hne : q1 ≠ q2) (hs : size q1 = size q2) (hsub : ∀ a b, ∃ e, sub a b = .error e) {n : Nat}
    {inL : ω → Except Err Bool} {eq : EqKey ω} (hp : Plain q1 q2 eq) (os : List ω) {net net' : EqNet ω} (hc : Clean q1 q2 net)
    (h : threeLoop size sub n inL setEqs eq os net = .ok net') : Clean q1 q2 net' := by
  induction os generalizing net with
  | nil => cases h; exact hc
  | cons o os ih =>
    unfold threeLoop at h
    split at h
    · cases h; exact hc
    · split at h
      · cases h
      · exact ih hc h
      · split at h
        · cases h
        · rename_i net1 k h1
          exact ih (three_step hne hs hsub hp hc h1) h

theorem threeLoop_bad (hne : q1 ≠ q2) (hs : size q1 = size q2) (hsub : ∀ a b, ∃ e, sub a b = .error e) {n : Nat}
    {inL : ω → Except Err Bool} (hp : Plain q1 q2 (.square q1)) (os : List ω) {net : EqNet ω} (hc : Clean q1 q2 net)
    (hin : inL q2 = .ok true) (hos : ∀ o ∈ os, tooManyNodes size (.square q1) o n = false) (hm : q2 ∈ os) :
    ∃ e, threeLoop size sub n inL setEqs (.square q1) os net = .error e := by
  induction os generalizing net with
  | nil => cases hm
  | cons o os ih =>
    unfold threeLoop
    rw [hos o (by simp)]
    simp only [Bool.false_eq_true, if_false]
    by_cases ho : o = q2
    · subst ho
      rw [hin]
      simp only
      obtain ⟨e, he⟩ := three_bad (setEqs := setEqs) hne hs hsub hc
      exact ⟨e, by rw [he]⟩
    · have hm' : q2 ∈ os := by
        rcases List.mem_cons.1 hm with h | h
        · exact absurd h.symm ho
        · exact h
      cases hi : inL o with
      | error e => exact ⟨e, rfl⟩
      | ok b =>
        cases b with
        | false => exact ih hc (fun o ho => hos o (by simp [ho])) hm'
        | true =>
          cases ht : threeOrbitEquations size sub (.square q1) o setEqs net with
          | error e => exact ⟨e, rfl⟩
          | ok r => exact ih (three_step hne hs hsub hp hc ht) (fun o ho => hos o (by simp [ho])) hm'

theorem definitely_keys (eqs : Dict (EqKey ω) (List ω)) :
    (∀ k ∈ (definitelyIndependent size eqs).2.1, k ∈ Dict.keys eqs) ∧ Dict.keys (definitelyIndependent size eqs).2.2 = Dict.keys eqs := by
  unfold definitelyIndependent
  simp only
  refine ⟨?_, by simp [Dict.keys, List.map_map, Function.comp_def]⟩
  have key : ∀ (c : EqKey ω × Nat → List (EqKey ω) × List (EqKey ω) → Bool) (l : List (EqKey ω × Nat)) (r : List (EqKey ω) × List (EqKey ω)) (K : List (EqKey ω)),
      (∀ k ∈ r.2, k ∈ K) → (∀ p ∈ l, p.1 ∈ K) → ∀ k ∈ (l.foldl (fun (r : List (EqKey ω) × List (EqKey ω)) p =>
        if p.1 ∈ r.1 then r else if c p r then (sadd r.1 p.1, r.2) else (r.1, sadd r.2 p.1)) r).2, k ∈ K := by
    intro c l
    induction l with
    | nil => intro r K hr _; exact hr
    | cons p l ih =>
      intro r K hr hl
      rw [List.foldl_cons]
      refine ih _ K ?_ fun p hp => hl p (by simp [hp])
      split
      · exact hr
      · split
        · exact hr
        · intro k hk
          simp only [sadd] at hk
          split at hk
          · exact hr k hk
          · rcases List.mem_append.1 hk with h | h
            · exact hr k h
            · rw [List.mem_singleton.1 h]; exact hl p (by simp)
  have := key (fun p r => decide (0 < (without p.2 ((eqs.map fun p => eqSet p.1 p.2).getD p.2 []) (eqs.map fun p => eqSet p.1 p.2) 0).length))
    (eqs.map Prod.fst).zipIdx (toSet ((eqs.map Prod.fst).filter fun eq => eq.left.all fun o => size o = 2), []) (Dict.keys eqs) (by simp) (by
      rintro ⟨k, i⟩ hp
      have := List.mem_zipIdx hp
      dsimp only
      rw [this.2.2]
      exact List.getElem_mem _)
  simpa only [decide_eq_true_eq] using this

/-- `independent_equations` needs `subtrahend` if there are two orbits with two nodes -/
theorem independentMany_stops (hne : q1 ≠ q2) (hs : size q1 = size q2) (hsub : ∀ a b, ∃ e, sub a b = .error e) {n : Nat}
    {inL : ω → Except Err Bool} {lists : Dict Nat (List ω)} {ordE : List (Option (EqKey ω)) → List (Option (EqKey ω))}
    {eqs : Dict (EqKey ω) (List ω)} (hk : ∀ k ∈ Dict.keys eqs, Plain q1 q2 k) (hsq : .square q1 ∈ Dict.keys eqs) {os : List ω}
    (hos : Dict.get lists 2 = some os) (hm : q2 ∈ os) (hin : inL q2 = .ok true)
    (hsz : ∀ o ∈ os, tooManyNodes size (.square q1) o n = false) :
    ∃ e, independentMany size sub n inL lists ordE eqs = .error e := by
  obtain ⟨k1, k2⟩ := definitely_keys (size := size) eqs
  unfold independentMany
  simp only
  split
  · exact ⟨_, rfl⟩
  · rename_i net hnet
    have hc := eqNetwork_clean hne hs hsub (fun k h => hk k (k1 k h)) (fun k h => hk k (k2 ▸ h)) hnet
    obtain ⟨e, he⟩ := forE_stops (f := threeLoops size sub n inL lists (definitelyIndependent size eqs).2.2) (P := Clean q1 q2) (Dict.keys eqs) hc (by
      intro net eq heq hc net' h
      unfold threeLoops at h
      refine forE_keeps (P := Clean q1 q2) _ hc ?_ h
      intro net i _ hc net' h
      split at h
      · cases h
      · exact threeLoop_keeps hne hs hsub (hk eq heq) _ hc h) hsq (by
      intro net hc
      unfold threeLoops
      rw [forE_head, hos]
      simp only
      obtain ⟨e, he⟩ := threeLoop_bad (setEqs := (definitelyIndependent size eqs).2.2) hne hs hsub (hk _ hsq) os hc hin hsz hm
      exact ⟨e, by rw [he]⟩)
    rw [he]
    exact ⟨e, rfl⟩

end generic

variable {α W β σ : Type} [DecidableEq α] [DecidableEq W] [Zero W] [LawfulIntNames α] [LinearOrder α] [DecidableEq σ] [One W]
  {canon : CGraph → β} {str : List (List α × Nat) × β → σ} {allowed : Option (List Nat)} {c : Coupling α W}
  {idx : Nat → α} {layers : List α} {nl N n : Nat} {T : Tables α W σ}
  {match? : CGraph → CGraph → Option (Dict Nat Nat)} {ord : Finset α → List α}
  {ol : List (Orbit α)}

theorem subtrahend_noXrange (B : Backend α β σ) (T : Tables α W σ) (ord : Finset α → List α) (ordS : List α → List α) (q1 q2 : Orbit α) :
    ∃ e, subtrahend false B T ord ordS q1 q2 = .error e := by
  unfold subtrahend
  split
  · exact ⟨_, rfl⟩
  · split
    · exact ⟨_, rfl⟩
    · exact ⟨.nameError, rfl⟩

/-- an orbit of two nodes with links on some of the layers -/
theorem two_orbit (S : Setup canon str match? allowed c idx layers nl N ord T ol) (hN : 2 ≤ N) (hl : layers.length = nl) (L : α → Prop)
    (hL : ∀ x, L x → x ∈ layers) {y : α} (hy : L y) :
    ∃ q ∈ ol, q.1 = 2 ∧ ∃ ops, Stored T.nets q.1 q.2.1 (afterP [c] false 0 true ops) ∧
      ((∀ x, x ∈ layers → L x) ↔ ∀ x, (Spec.shown ops).layer x → ∃ i j, (Spec.shown ops).link x i j) := by
  have hab : idx 0 ≠ idx 1 := fun h => by have := S.ok.idx h; omega
  set a := idx 0
  set b := idx 1
  obtain ⟨k, ops, hst, hg, f0, f1, hf⟩ := S.tab.all S.nodes 2 le_rfl (hN.trans (le_max_left _ _))
    ⟨fun x => x ∈ [a, b], fun x => x ∈ layers, fun x i j => L x ∧ i ∈ [a, b] ∧ j ∈ [a, b] ∧ i ≠ j⟩
    ⟨⟨[a, b], by simp [hab], rfl, fun x => Iff.rfl⟩, ⟨layers, List.Sublist.refl _, hl, fun x => Iff.rfl⟩, fun i j hi hj => by
        by_cases hij : i = j
        · rw [hij]
        · exact .single ⟨hi, hj, y, hL y hy, hy, hi, hj, hij⟩⟩
    (fun x i j ⟨a, b, c, d⟩ => ⟨a, c, b, Ne.symm d⟩) (fun x i ⟨_, _, _, d⟩ => d rfl)
  have hnode : (Spec.shown ops).node a := (hg.nodes _).2 ⟨0, by omega, rfl⟩
  obtain ⟨o, ho, -⟩ := S.auts.val 2 k ops hst _ hnode
  refine ⟨(2, k, o), (S.ol _).2 ⟨hN, ops, _, hst, hnode, ho⟩, rfl, ops, hst, ?_⟩
  have : Inhabited α := ⟨a⟩
  have hsub : ∀ x i j, (Spec.shown ops).link x i j → (Spec.shown ops).node i ∧ (Spec.shown ops).node j ∧ i ≠ j := fun x i j h => by
    have := Is.link_node (layers := layers) (c := c) ⟨ops, rfl, gen_netOk S.ok hg, rfl⟩ h
    exact ⟨this.2.1, this.2.2.1, this.2.2.2.1⟩
  constructor
  · intro hall x hx
    obtain ⟨i, hi, hi'⟩ := hf.nodes.surjOn (show a ∈ {x | x ∈ [a, b]} by simp)
    obtain ⟨j, hj, hj'⟩ := hf.nodes.surjOn (show b ∈ {x | x ∈ [a, b]} by simp)
    exact ⟨i, j, (hf.links x i j hx hi hj).2 ⟨hall _ (hf.layers.mapsTo hx), by simp [hi'], by simp [hj'], by rw [hi', hj']; exact hab⟩⟩
  · intro hall x hx
    obtain ⟨x', hx', rfl⟩ := hf.layers.surjOn (show x ∈ {x | x ∈ layers} from hx)
    obtain ⟨i, j, h⟩ := hall x' hx'
    obtain ⟨h1, h2, -⟩ := hsub _ _ _ h
    exact ((hf.links x' i j hx' h1 h2).1 h).1

end Pymnet
