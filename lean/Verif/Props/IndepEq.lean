import Verif.Proofs.Scc
import Verif.Spec.IndepEq

/-!
C102–C104: dependency networks of orbit equations.
-/

namespace Pymnet

open Py

variable {κ : Type} [DecidableEq κ]

/-! ### C102: `SCCs` -/

/-- **C102.** `SCCs(net)` returns the strongly connected components of the network, numbered from 1, such that links go to components
with the same or a smaller number. -/
theorem C102_sccs {net : Dict κ (List κ)} (hn : (Dict.keys net).Nodup) (hc : Spec.Closed net) :
    ∃ cs, sccs net = .ok (cs.zipIdx.map fun p => (p.2 + 1, p.1)) ∧ Spec.IsSccs net cs := sccs_ok hn hc

/-- Internal: what `reverse` does if it returns. -/
theorem addReversed_loop (e : κ) (us : List κ) (d : Dict κ (List κ)) :
    (∃ d', forE (addReversed e) us d = .ok d' ∧ (∀ u ∈ us, u ∈ Dict.keys d) ∧ ∀ x, x ∈ Dict.keys d' ↔ x ∈ Dict.keys d) ∨
      (forE (addReversed e) us d = .error .keyError ∧ ∃ u ∈ us, u ∉ Dict.keys d) := by
  induction us generalizing d with
  | nil => exact Or.inl ⟨d, rfl, by simp, fun _ => Iff.rfl⟩
  | cons u us ih =>
    rw [forE]
    unfold addReversed
    cases h : Dict.get d u with
    | none => exact Or.inr ⟨rfl, u, by simp, Dict.get_eq_none.1 h⟩
    | some s =>
      have hu : u ∈ Dict.keys d := Dict.mem_keys.2 (by rw [h]; rfl)
      have hk : ∀ x, x ∈ Dict.keys (Dict.set d u (sadd s e)) ↔ x ∈ Dict.keys d := by
        intro x
        rw [Dict.keys_set, if_pos hu]
      rcases ih (Dict.set d u (sadd s e)) with ⟨d', h1, h2, h3⟩ | ⟨h1, w, hw, hw'⟩
      · refine Or.inl ⟨d', h1, ?_, fun x => (h3 x).trans (hk x)⟩
        intro x hx
        rcases List.mem_cons.1 hx with rfl | hx
        · exact hu
        · exact (hk x).1 (h2 x hx)
      · exact Or.inr ⟨h1, w, by simp [hw], fun h => hw' ((hk w).2 h)⟩

/-- **C102.** If a link ends at an equation that is not a key, `KeyError` is raised. -/
theorem C102_open {net : Dict κ (List κ)} {a b : κ} (hab : Spec.Arrow net a b) (hb : b ∉ Dict.keys net) :
    sccs net = .error .keyError := by
  have hk : ∀ (l : Dict κ (List κ)) (d : Dict κ (List κ)) (x : κ), x ∈ Dict.keys (l.foldl (fun d p => Dict.set d p.1 []) d) ↔
      x ∈ Dict.keys d ∨ x ∈ Dict.keys l := by
    intro l
    induction l with
    | nil => intro d x; simp [Dict.keys]
    | cons p l ih =>
      intro d x
      rw [List.foldl_cons, ih, Dict.keys_set]
      by_cases hp : p.1 ∈ Dict.keys d
      · rw [if_pos hp]
        constructor
        · rintro (h | h)
          · exact Or.inl h
          · exact Or.inr (List.mem_cons_of_mem _ h)
        · rintro (h | h)
          · exact Or.inl h
          · rcases List.mem_cons.1 h with rfl | h
            · exact Or.inl hp
            · exact Or.inr h
      · rw [if_neg hp, List.mem_append, List.mem_singleton]
        show _ ↔ _ ∨ x ∈ p.1 :: Dict.keys l
        rw [List.mem_cons]
        tauto
  have outer : ∀ (l : Dict κ (List κ)) (d : Dict κ (List κ)), (∃ p ∈ l, b ∈ p.2) → b ∉ Dict.keys d →
      forE (fun d p => forE (addReversed p.1) p.2 d) l d = .error .keyError := by
    intro l
    induction l with
    | nil => rintro d ⟨p, hp, -⟩; cases hp
    | cons q l ih =>
      rintro d ⟨p, hp, hm⟩ hd
      rw [forE]
      rcases addReversed_loop q.1 q.2 d with ⟨d', h1, h2, h3⟩ | ⟨h1, -⟩
      · rw [h1]
        refine ih d' ?_ (fun h => hd ((h3 b).1 h))
        rcases List.mem_cons.1 hp with rfl | hp
        · exact absurd (h2 b hm) hd
        · exact ⟨p, hp, hm⟩
      · rw [h1]
  unfold sccs reverseNet
  obtain ⟨bs, h, hm⟩ := hab
  rw [outer net _ ⟨(a, bs), Dict.mem_of_get h, hm⟩ (by
    rw [hk]
    rintro (h | h)
    · simp [Dict.keys] at h
    · exact hb h)]

/-- A network with two cycles, for the examples. -/
def sampleDeps : Dict Nat (List Nat) := [(1, [2]), (2, [3]), (3, [1, 4]), (4, [5]), (5, [4]), (6, []), (7, [6, 1])]

theorem sampleDeps_closed : Spec.Closed sampleDeps := by
  rintro a b ⟨bs, h, hb⟩
  have := Dict.mem_of_get h
  simp only [sampleDeps, List.mem_cons, Prod.mk.injEq, List.not_mem_nil, or_false] at this
  rcases this with ⟨-, rfl⟩ | ⟨-, rfl⟩ | ⟨-, rfl⟩ | ⟨-, rfl⟩ | ⟨-, rfl⟩ | ⟨-, rfl⟩ | ⟨-, rfl⟩ <;>
    simp [sampleDeps, Dict.keys] at hb ⊢ <;> omega

example : (Dict.keys sampleDeps).Nodup ∧ Spec.Closed sampleDeps := ⟨by decide, sampleDeps_closed⟩
example : (sccs sampleDeps).toOption = some [(1, [6]), (2, [4, 5]), (3, [1, 2, 3]), (4, [7])] := by decide +kernel
example : Spec.Arrow [(1, [2])] 1 2 ∧ 2 ∉ Dict.keys [(1, [2])] := ⟨⟨[2], rfl, by simp⟩, by decide⟩

/-! ### C103: `independents_and_dependents` -/

theorem Spec.Follows.mono {net : Dict κ (List κ)} {I J : κ → Prop} (h : ∀ x, I x → J x) {e : κ} (he : Spec.Follows net I e) :
    Spec.Follows net J e := by
  induction he with
  | base hi => exact .base (h _ hi)
  | step h1 h2 _ ih => exact .step h1 h2 ih

/-- What is required of the equations of three orbits. -/
def GoodThree (three : κ → Bool) (net : Dict κ (List κ)) : Prop :=
  ∀ e ds, three e = true → Dict.get net e = some ds → ds ≠ [] ∧ e ∉ ds

/-- What holds of the two sets when the equations satisfying `Done` have been placed. -/
structure Placed (three : κ → Bool) (net : Dict κ (List κ)) (s : List κ × List κ) (Done : κ → Prop) : Prop where
  ind : s.1.Nodup
  dep : s.2.Nodup
  mem : ∀ x, (x ∈ s.1 ∨ x ∈ s.2) ↔ Done x
  disj : ∀ x ∈ s.1, x ∉ s.2
  follows : GoodThree three net → ∀ x, Done x → Spec.Follows net (· ∈ s.1) x

section

variable {three : κ → Bool} {ord : List κ → List κ} {net : Dict κ (List κ)}

theorem Placed.add_ind {s : List κ × List κ} {Done : κ → Prop} (h : Placed three net s Done) {e : κ} (he : ¬ Done e) :
    Placed three net (sadd s.1 e, s.2) (fun x => Done x ∨ x = e) := by
  refine ⟨nodup_sadd h.ind e, h.dep, ?_, ?_, ?_⟩
  · intro x
    simp only [mem_sadd]
    rw [← h.mem]
    tauto
  · intro x hx
    rcases mem_sadd.1 hx with hx | rfl
    · exact h.disj x hx
    · exact fun hd => he ((h.mem x).1 (Or.inr hd))
  · intro hg x hx
    rcases hx with hx | rfl
    · exact (h.follows hg x hx).mono fun y hy => by simp [hy]
    · exact .base (by simp)

theorem Placed.add_dep {s : List κ × List κ} {Done : κ → Prop} (h : Placed three net s Done) {e : κ} (he : ¬ Done e)
    (hf : GoodThree three net → Spec.Follows net (· ∈ s.1) e) : Placed three net (s.1, sadd s.2 e) (fun x => Done x ∨ x = e) := by
  refine ⟨h.ind, nodup_sadd h.dep e, ?_, ?_, ?_⟩
  · intro x
    simp only [mem_sadd]
    rw [← h.mem]
    tauto
  · intro x hx hd
    rcases mem_sadd.1 hd with hd | rfl
    · exact h.disj x hx hd
    · exact he ((h.mem x).1 (Or.inl hx))
  · intro hg x hx
    rcases hx with hx | rfl
    · exact h.follows hg x hx
    · exact hf hg

theorem Placed.congr {s : List κ × List κ} {Done Done' : κ → Prop} (h : Placed three net s Done) (e : ∀ x, Done x ↔ Done' x) :
    Placed three net s Done' := by
  rwa [show Done' = Done from funext fun x => propext (e x).symm]

/-- Internal: adding a list of independent equations. -/
theorem Placed.add_inds {s : List κ × List κ} {Done : κ → Prop} (h : Placed three net s Done) (l : List κ) (hn : l.Nodup)
    (hd : ∀ x ∈ l, ¬ Done x) : Placed three net (l.foldl sadd s.1, s.2) (fun x => Done x ∨ x ∈ l) := by
  induction l generalizing s Done with
  | nil => exact h.congr (by simp)
  | cons a l ih =>
    rw [List.foldl_cons]
    refine (ih (h.add_ind (hd a (by simp))) (List.nodup_cons.1 hn).2 ?_).congr ?_
    · rintro x hx (h' | rfl)
      · exact hd x (by simp [hx]) h'
      · exact (List.nodup_cons.1 hn).1 hx
    · intro x
      simp only [List.mem_cons]
      tauto

/-- Internal: the loop over the equations of a component. -/
theorem placeEq_loop (l : List κ) (hk : ∀ x ∈ l, x ∈ Dict.keys net) : ∀ (s : List κ × List κ) (Done : κ → Prop), l.Nodup →
    (∀ x ∈ l, ¬ Done x) → Placed three net s Done →
    ∃ s', forE (placeEq net) l s = .ok s' ∧ Placed three net s' (fun x => Done x ∨ x ∈ l) ∧ (∀ x, Done x → (x ∈ s'.2 ↔ x ∈ s.2)) ∧
      ∀ A e B ds, l = A ++ e :: B → Dict.get net e = some ds → (e ∈ s'.2 ↔ ds ≠ [] ∧ ∀ d ∈ ds, Done d ∨ d ∈ A) := by
  induction l with
  | nil => exact fun s Done _ _ h => ⟨s, rfl, h.congr (by simp), fun _ _ => Iff.rfl, by simp⟩
  | cons a l ih =>
    intro s Done hn hd h
    obtain ⟨ds, hds⟩ := Option.isSome_iff_exists.1 (Dict.mem_keys.1 (hk a (by simp)))
    have ha := hd a (by simp)
    have hadep : a ∉ s.2 := fun hm => ha ((h.mem a).1 (Or.inr hm))
    obtain ⟨s1, e1, p1, d1, c1⟩ : ∃ s1, placeEq net s a = .ok s1 ∧ Placed three net s1 (fun x => Done x ∨ x = a) ∧
        (∀ x, x ≠ a → (x ∈ s1.2 ↔ x ∈ s.2)) ∧ (a ∈ s1.2 ↔ ds ≠ [] ∧ ∀ d ∈ ds, Done d) := by
      unfold placeEq
      rw [hds]
      by_cases h0 : ds.length = 0
      · refine ⟨_, by simp only [h0, if_true], h.add_ind ha, fun _ _ => Iff.rfl, ?_⟩
        have : ds = [] := List.length_eq_zero_iff.1 h0
        simp [this, hadep]
      · have hne : ds ≠ [] := fun e => h0 (by simp [e])
        by_cases hall : ds.all (fun d => d ∈ s.1 || d ∈ s.2) = true
        · have hall' : ∀ d ∈ ds, Done d := by
            intro d hd'
            have := List.all_eq_true.1 hall d hd'
            simp only [Bool.or_eq_true, decide_eq_true_eq] at this
            exact (h.mem d).1 this
          refine ⟨_, by simp only [h0, if_false, hall, if_true], h.add_dep ha fun hg => ?_, ?_, ?_⟩
          · exact .step hds hne fun d hd' => h.follows hg d (hall' d hd')
          · intro x hx
            simp [hx]
          · simp only [mem_sadd, or_true, true_iff]
            exact ⟨hne, hall'⟩
        · refine ⟨_, by simp only [h0, if_false, hall]; rfl, h.add_ind ha, fun _ _ => Iff.rfl, ?_⟩
          simp only [hadep, false_iff]
          rintro ⟨-, h'⟩
          apply hall
          rw [List.all_eq_true]
          intro d hd'
          have := (h.mem d).2 (h' d hd')
          simpa using this
    obtain ⟨s2, e2, p2, d2, c2⟩ := ih (fun x hx => hk x (by simp [hx])) s1 _ (List.nodup_cons.1 hn).2 (by
      rintro x hx (h' | rfl)
      · exact hd x (by simp [hx]) h'
      · exact (List.nodup_cons.1 hn).1 hx) p1
    refine ⟨s2, by rw [forE, e1]; exact e2, p2.congr (fun x => by simp only [List.mem_cons]; tauto), ?_, ?_⟩
    · intro x hx
      have hxa : x ≠ a := fun e => ha (e ▸ hx)
      rw [d2 x (Or.inl hx), d1 x hxa]
    · intro A e B es hl hes
      cases A with
      | nil =>
        obtain ⟨rfl, rfl⟩ := List.cons.inj hl
        rw [hds] at hes
        obtain rfl := Option.some.inj hes
        rw [d2 a (Or.inr rfl), c1]
        simp
      | cons a' A =>
        obtain ⟨rfl, hl'⟩ := List.cons.inj hl
        rw [c2 A e B es hl' hes]
        constructor
        · rintro ⟨h1, h2⟩
          refine ⟨h1, fun d hd' => ?_⟩
          rcases h2 d hd' with (h | rfl) | h
          · exact Or.inl h
          · exact Or.inr (by simp)
          · exact Or.inr (by simp [h])
        · rintro ⟨h1, h2⟩
          refine ⟨h1, fun d hd' => ?_⟩
          rcases h2 d hd' with h | h
          · exact Or.inl (Or.inl h)
          · rcases List.mem_cons.1 h with rfl | h
            · exact Or.inl (Or.inr rfl)
            · exact Or.inr h

/-- The rule by which the equations of the component `c` are dependent, if `Before` are the equations of earlier components. -/
def DepRule (three : κ → Bool) (ord : List κ → List κ) (net : Dict κ (List κ)) (D : List κ) (c : List κ) (Before : κ → Prop) : Prop :=
  (∀ t, (ord c).find? three = some t → ∀ e ∈ c, e ∈ D ↔ e = t) ∧
  ((∀ e ∈ c, three e = false) → ∀ A e B ds, ord c = A ++ e :: B → Dict.get net e = some ds →
    (e ∈ D ↔ ds ≠ [] ∧ ∀ d ∈ ds, Before d ∨ d ∈ A))

theorem placeScc_ok (hord : ∀ l, (ord l).Perm l) {c : List κ} (hk : ∀ x ∈ c, x ∈ Dict.keys net) {s : List κ × List κ} {Done : κ → Prop}
    (hn : c.Nodup) (hd : ∀ x ∈ c, ¬ Done x) (hdown : ∀ x ∈ c, ∀ y, Spec.Arrow net x y → Done y ∨ y ∈ c) (h : Placed three net s Done) :
    ∃ s', placeScc three ord net s c = .ok s' ∧ Placed three net s' (fun x => Done x ∨ x ∈ c) ∧ (∀ x, Done x → (x ∈ s'.2 ↔ x ∈ s.2)) ∧
      DepRule three ord net s'.2 c Done := by
  unfold placeScc
  cases hf : (ord c).find? three with
  | some t =>
    have ht : t ∈ c := (hord c).mem_iff.1 (List.mem_of_find?_eq_some hf)
    have ht3 := List.find?_some hf
    have htd := hd t ht
    have h1 := h.add_inds (c.filter (· ≠ t)) (hn.filter _) (fun x hx => hd x (List.mem_filter.1 hx).1)
    have h2 := h1.add_dep (e := t) (by
      rintro (h' | h')
      · exact htd h'
      · simpa using (List.mem_filter.1 h').2) (by
      intro hg
      obtain ⟨ds, hds⟩ := Option.isSome_iff_exists.1 (Dict.mem_keys.1 (hk t ht))
      obtain ⟨g1, g2⟩ := hg t ds ht3 hds
      refine .step hds g1 fun d hd' => ?_
      refine h1.follows hg d ?_
      rcases hdown t ht d ⟨ds, hds, hd'⟩ with h' | h'
      · exact Or.inl h'
      · refine Or.inr (List.mem_filter.2 ⟨h', ?_⟩)
        have : d ≠ t := fun e => g2 (e ▸ hd')
        simpa using this)
    refine ⟨_, rfl, h2.congr fun x => ?_, ?_, ?_, ?_⟩
    · simp only [List.mem_filter, ne_eq, decide_not, Bool.not_eq_eq_eq_not, Bool.not_true, decide_eq_false_iff_not]
      by_cases hx : x = t
      · subst hx; simp [ht]
      · simp [hx]
    · intro x hx
      have : x ≠ t := fun e => htd (e ▸ hx)
      simp [this]
    · intro t' ht' e he
      obtain rfl := Option.some.inj (hf.symm.trans ht')
      rw [mem_sadd]
      constructor
      · rintro (h' | h')
        · exact absurd ((h.mem e).1 (Or.inr h')) (hd e he)
        · exact h'
      · exact Or.inr
    · intro hno
      rw [hno t ht] at ht3
      cases ht3
  | none =>
    obtain ⟨s', e1, p1, d1, c1⟩ := placeEq_loop (net := net) (three := three) (ord c) (fun x hx => hk x ((hord c).mem_iff.1 hx)) s Done
      ((hord c).nodup_iff.2 hn) (fun x hx => hd x ((hord c).mem_iff.1 hx)) h
    refine ⟨s', e1, p1.congr fun x => by rw [(hord c).mem_iff], d1, ?_, fun _ => c1⟩
    intro t ht
    rw [hf] at ht
    cases ht

/-- **C103.** `independents_and_dependents` of the components of `SCCs`: every equation is put into exactly one of the two sets. Of a
component with an equation of three orbits only the first of them (in the order of iteration) is dependent. In the others an equation is
dependent iff it has links and all of them go to earlier components or to equations of its component that come before it. If equations of
three orbits have links, but none to themselves, then all dependent equations follow from the independent ones. -/
theorem C103_split {cs : List (List κ)} (h : Spec.IsSccs net cs) (hc : Spec.Closed net) (hord : ∀ l, (ord l).Perm l) :
    ∃ I D, indepsAndDeps three ord (cs.zipIdx.map fun p => (p.2 + 1, p.1)) net = .ok (I, D) ∧ Spec.Splits net I D ∧
      (∀ i c, cs[i]? = some c → DepRule three ord net D c (fun d => ∃ (j : Nat) (c' : List κ), j < i ∧ cs[j]? = some c' ∧ d ∈ c')) ∧
      ((∀ e ds, three e = true → Dict.get net e = some ds → ds ≠ [] ∧ e ∉ ds) → ∀ d ∈ D, Spec.Follows net (· ∈ I) d) := by
  have loop : ∀ (B A : List (List κ)) (s : List κ × List κ), cs = A ++ B →
      Placed three net s (fun x => ∃ (j : Nat) (c' : List κ), j < A.length ∧ cs[j]? = some c' ∧ x ∈ c') →
      (∀ i c, i < A.length → cs[i]? = some c → DepRule three ord net s.2 c (fun d => ∃ (j : Nat) (c' : List κ), j < i ∧ cs[j]? = some c' ∧ d ∈ c')) →
      ∃ s', forE (placeScc three ord net) B s = .ok s' ∧
        Placed three net s' (fun x => ∃ (j : Nat) (c' : List κ), j < cs.length ∧ cs[j]? = some c' ∧ x ∈ c') ∧
        (∀ i c, i < cs.length → cs[i]? = some c → DepRule three ord net s'.2 c (fun d => ∃ (j : Nat) (c' : List κ), j < i ∧ cs[j]? = some c' ∧ d ∈ c')) := by
    intro B
    induction B with
    | nil =>
      intro A s e hp hr
      have : cs.length = A.length := by rw [e]; simp
      exact ⟨s, rfl, by rw [this]; exact hp, by rw [this]; exact hr⟩
    | cons c B ih =>
      intro A s e hp hr
      have hi : cs[A.length]? = some c := by rw [e]; simp
      have hcm : c ∈ cs := List.mem_of_getElem? hi
      obtain ⟨s1, e1, p1, d1, r1⟩ := placeScc_ok (ord := ord) hord (fun x hx => (h.cover x).2 ⟨c, hcm, hx⟩) (h.nonempty c hcm).2 (by
        rintro x hx ⟨j, c', hj, hc', hx'⟩
        have := h.once _ _ c' c x hc' hi hx' hx
        omega) (by
        intro x hx y hxy
        obtain ⟨d, hd, hyd⟩ := (h.cover y).1 (hc x y hxy)
        obtain ⟨j, hj⟩ := List.getElem?_of_mem hd
        have hle := h.order _ _ c d x y hi hj hx hyd hxy
        rcases Nat.lt_or_ge j A.length with hlt | hge
        · exact Or.inl ⟨j, d, hlt, hj, hyd⟩
        · have : j = A.length := by omega
          subst this
          rw [hi] at hj
          obtain rfl := Option.some.inj hj
          exact Or.inr hyd) hp
      have hdone : ∀ x, ((∃ (j : Nat) (c' : List κ), j < A.length ∧ cs[j]? = some c' ∧ x ∈ c') ∨ x ∈ c) ↔
          ∃ (j : Nat) (c' : List κ), j < (A ++ [c]).length ∧ cs[j]? = some c' ∧ x ∈ c' := by
        intro x
        constructor
        · rintro (⟨j, c', hj, h1, h2⟩ | hx)
          · exact ⟨j, c', by simp; omega, h1, h2⟩
          · exact ⟨A.length, c, by simp, hi, hx⟩
        · rintro ⟨j, c', hj, h1, h2⟩
          rcases Nat.lt_or_ge j A.length with hlt | hge
          · exact Or.inl ⟨j, c', hlt, h1, h2⟩
          · have : j = A.length := by simp at hj; omega
            subst this
            rw [hi] at h1
            obtain rfl := Option.some.inj h1
            exact Or.inr h2
      obtain ⟨s2, e2, p2, r2⟩ := ih (A ++ [c]) s1 (by rw [e]; simp) (p1.congr hdone) (by
        intro i c0 hlt hc0
        rcases Nat.lt_or_ge i A.length with hlt' | hge
        · obtain ⟨q1, q2⟩ := hr i c0 hlt' hc0
          have hsame : ∀ x ∈ c0, (x ∈ s1.2 ↔ x ∈ s.2) := fun x hx => d1 x ⟨i, c0, hlt', hc0, hx⟩
          refine ⟨fun t ht x hx => by rw [hsame x hx]; exact q1 t ht x hx, fun hno A' x B' ds hl hds => ?_⟩
          rw [hsame x ((hord c0).mem_iff.1 (by rw [hl]; simp))]
          exact q2 hno A' x B' ds hl hds
        · have : i = A.length := by simp at hlt; omega
          subst this
          rw [hi] at hc0
          obtain rfl := Option.some.inj hc0
          exact r1)
      refine ⟨s2, ?_, p2, r2⟩
      rw [forE, e1]
      exact e2
  obtain ⟨s, e1, p1, r1⟩ := loop cs [] ([], []) rfl ⟨List.nodup_nil, List.nodup_nil, by simp, by simp, by simp⟩ (by simp)
  refine ⟨s.1, s.2, ?_, ⟨p1.ind, p1.dep, fun e => ?_, p1.disj⟩, ?_, ?_⟩
  · unfold indepsAndDeps
    have : (cs.zipIdx.map fun p => ((p.2 + 1, p.1) : Nat × List κ)).map Prod.snd = cs := by
      rw [List.map_map]
      exact List.zipIdx_map_fst ..
    rw [this, e1]
  · rw [h.cover, p1.mem]
    constructor
    · rintro ⟨c, hc, hx⟩
      obtain ⟨j, hj⟩ := List.getElem?_of_mem hc
      exact ⟨j, c, (List.getElem?_eq_some_iff.1 hj).1, hj, hx⟩
    · rintro ⟨j, c, -, hj, hx⟩
      exact ⟨c, List.mem_of_getElem? hj, hx⟩
  · intro i c hc
    exact r1 i c (List.getElem?_eq_some_iff.1 hc).1 hc
  · intro hg d hd
    exact p1.follows hg d ((p1.mem d).1 (Or.inr hd))

end

example : (indepsAndDeps (fun _ => false) id [(1, [6]), (2, [4, 5]), (3, [1, 2, 3]), (4, [7])] sampleDeps).toOption =
    some ([6, 4, 1, 2], [5, 3, 7]) := by decide +kernel

/-- **C103 is false of the code** for an equation of three orbits without links: it is dependent, although it follows from nothing. An
equation of two orbits without links is independent. -/
theorem C103_false_three : (sccs [(1, [])]).toOption = some [(1, [1])] ∧
    (indepsAndDeps (fun _ => true) id [(1, [1])] [(1, [])]).toOption = some ([], [1]) ∧ ¬ Spec.Follows [(1, [])] (· ∈ ([] : List Nat)) 1 := by
  refine ⟨by decide +kernel, by decide +kernel, ?_⟩
  intro h
  cases h with
  | base h => cases h
  | step h1 h2 _ => exact h2 (Option.some.inj h1).symm

/-- **C103 is false of the code**: the independent equations need not be independent of each other. Of a component with an equation of
three orbits (here 1) all other equations are independent, also if one (here 3) follows from another. -/
theorem C103_false_independent : (sccs [(1, [3]), (2, [1]), (3, [2])]).toOption = some [(1, [1, 3, 2])] ∧
    (indepsAndDeps (· == 1) id [(1, [1, 3, 2])] [(1, [3]), (2, [1]), (3, [2])]).toOption = some ([3, 2], [1]) ∧
    Spec.Follows [(1, [3]), (2, [1]), (3, [2])] (· ∈ [2]) 3 := by
  refine ⟨by decide +kernel, by decide +kernel, ?_⟩
  refine .step (ds := [2]) rfl (by simp) ?_
  intro d hd
  exact .base hd

/-! ### C104: `all_inds_and_deps` -/

section

variable {three : κ → Bool} {ord : List κ → List κ} {net : Dict κ (List (List κ))}

omit [DecidableEq κ] in
theorem dict_ext [DecidableEq κ] {ν : Type} {d e : Dict κ ν} (hk : Dict.keys d = Dict.keys e) (hn : (Dict.keys d).Nodup)
    (h : ∀ x, Dict.get d x = Dict.get e x) : d = e := by
  induction d generalizing e with
  | nil => cases e with
    | nil => rfl
    | cons q e => cases hk
  | cons p d ih =>
    cases e with
    | nil => cases hk
    | cons q e =>
      obtain ⟨k1, k2⟩ := List.cons.inj hk
      obtain ⟨a, v⟩ := p
      obtain ⟨b, w⟩ := q
      simp only at k1
      subst k1
      have hv := h a
      rw [Dict.get_cons, Dict.get_cons, if_pos rfl, if_pos rfl] at hv
      obtain rfl := Option.some.inj hv
      have hn' := List.nodup_cons.1 hn
      rw [ih k2 hn'.2 fun x => ?_]
      have hx := h x
      rw [Dict.get_cons, Dict.get_cons] at hx
      by_cases hax : a = x
      · subst hax
        have h1 : Dict.get d a = none := Dict.get_eq_none.2 hn'.1
        have h2 : Dict.get e a = none := Dict.get_eq_none.2 (by rw [← show Dict.keys d = Dict.keys e from k2]; exact hn'.1)
        rw [h1, h2]
      · rwa [if_neg hax, if_neg hax] at hx

/-- Internal: setting the chosen sets. -/
theorem choose_get (eqs : List κ) : ∀ (base : Dict κ (List κ)) (ch : List (List κ)), eqs.Nodup → (∀ e ∈ eqs, e ∈ Dict.keys base) →
    ch.length = eqs.length → Dict.keys (choose base eqs ch) = Dict.keys base ∧
      (∀ x, x ∉ eqs → Dict.get (choose base eqs ch) x = Dict.get base x) ∧
      ∀ p ∈ eqs.zip ch, Dict.get (choose base eqs ch) p.1 = some p.2 := by
  induction eqs with
  | nil => intro base ch _ _ _; simp [choose]
  | cons e eqs ih =>
    intro base ch hn hk hl
    cases ch with
    | nil => simp at hl
    | cons c ch =>
      have hn' := List.nodup_cons.1 hn
      have hke : Dict.keys (Dict.set base e c) = Dict.keys base := by rw [Dict.keys_set, if_pos (hk e (by simp))]
      obtain ⟨h1, h2, h3⟩ := ih (Dict.set base e c) ch hn'.2 (fun x hx => by rw [hke]; exact hk x (by simp [hx])) (by simpa using hl)
      have hch : choose base (e :: eqs) (c :: ch) = choose (Dict.set base e c) eqs ch := rfl
      rw [hch]
      refine ⟨h1.trans hke, ?_, ?_⟩
      · intro x hx
        rw [h2 x (fun h => hx (by simp [h])), Dict.get_set, if_neg (fun h => hx (by simp [h]))]
      · intro p hp
        rw [List.zip_cons_cons] at hp
        rcases List.mem_cons.1 hp with rfl | hp
        · simp only
          rw [h2 e hn'.1, Dict.get_set_self]
        · exact h3 p hp

/-- The equations with several alternatives. -/
def severals (net : Dict κ (List (List κ))) : Dict κ (List (List κ)) := net.filter fun p => 1 < p.2.length

/-- The network with the first alternatives. -/
def firsts (net : Dict κ (List (List κ))) : Dict κ (List κ) := net.map fun p => (p.1, p.2.headD [])

omit [DecidableEq κ] in
theorem keys_firsts : Dict.keys (firsts net) = Dict.keys net := by
  unfold Dict.keys firsts
  rw [List.map_map]
  rfl

theorem get_map_val {ν μ : Type} (f : ν → μ) (d : Dict κ ν) (x : κ) :
    Dict.get (d.map fun p => (p.1, f p.2)) x = (Dict.get d x).map f := by
  induction d with
  | nil => rfl
  | cons p d ih =>
    rw [List.map_cons, Dict.get_cons, ih]
    obtain ⟨a, v⟩ := p
    rw [Dict.get_cons]
    by_cases h : a = x
    · rw [if_pos h, if_pos h]; rfl
    · rw [if_neg h, if_neg h]

theorem forall₂_zip {R : List κ → List (List κ) → Prop} {l : Dict κ (List (List κ))} {ch : List (List κ)}
    (h : List.Forall₂ R ch (l.map Prod.snd)) : ∀ p ∈ l, ∃ c, (p.1, c) ∈ (l.map Prod.fst).zip ch ∧ R c p.2 := by
  induction l generalizing ch with
  | nil => intro p hp; cases hp
  | cons q l ih =>
    cases h with
    | cons h1 h2 =>
      intro p hp
      rcases List.mem_cons.1 hp with rfl | hp
      · exact ⟨_, by simp, h1⟩
      · obtain ⟨c, hc, hR⟩ := ih h2 p hp
        exact ⟨c, by simp [hc], hR⟩

/-- Internal: a combination of alternatives is an alternative for every equation. -/
theorem alternative_choose (hn : (Dict.keys net).Nodup) {ch : List (List κ)} (hch : ch ∈ product ((severals net).map Prod.snd)) :
    Spec.Alternative net (choose (firsts net) ((severals net).map Prod.fst) ch) := by
  have hsub : ((severals net).map Prod.fst).Sublist (Dict.keys net) := List.filter_sublist.map _
  have hF := mem_product.1 hch
  obtain ⟨h1, h2, h3⟩ := choose_get ((severals net).map Prod.fst) (firsts net) ch (hsub.nodup hn)
    (fun e he => by rw [keys_firsts]; exact hsub.subset he) (by simpa using hF.length_eq)
  refine ⟨h1.trans keys_firsts, fun e alts he => ?_⟩
  have hmem : (e, alts) ∈ net := Dict.mem_of_get he
  by_cases hs : 1 < alts.length
  · obtain ⟨c, hc, hR⟩ := forall₂_zip hF (e, alts) (List.mem_filter.2 ⟨hmem, by simpa using hs⟩)
    exact ⟨c, h3 _ hc, Or.inl hR⟩
  · have hnot : e ∉ (severals net).map Prod.fst := by
      intro h
      obtain ⟨p, hp, rfl⟩ := List.mem_map.1 h
      obtain ⟨hp1, hp2⟩ := List.mem_filter.1 hp
      have := Dict.get_of_mem hn (k := p.1) (v := p.2) hp1
      rw [he] at this
      obtain rfl := Option.some.inj this
      exact hs (by simpa using hp2)
    refine ⟨alts.headD [], ?_, ?_⟩
    · rw [h2 e hnot]
      unfold firsts
      rw [get_map_val (fun l : List (List κ) => l.headD []), he]
      rfl
    · cases alts with
      | nil => exact Or.inr ⟨rfl, rfl⟩
      | cons a l => exact Or.inl (by simp)

/-- Internal: every alternative is a combination. -/
theorem choose_alternative (hn : (Dict.keys net).Nodup) {d : Dict κ (List κ)} (h : Spec.Alternative net d) :
    ∃ ch ∈ product ((severals net).map Prod.snd), choose (firsts net) ((severals net).map Prod.fst) ch = d := by
  have hsub : ((severals net).map Prod.fst).Sublist (Dict.keys net) := List.filter_sublist.map _
  have hm : ∀ p ∈ severals net, p ∈ net ∧ 1 < p.2.length := fun p hp => by simpa [severals] using hp
  let f : κ × List (List κ) → List κ := fun p => (Dict.get d p.1).getD []
  have hch : (severals net).map f ∈ product ((severals net).map Prod.snd) := by
    rw [mem_product, List.forall₂_map_left_iff, List.forall₂_map_right_iff, List.forall₂_same]
    intro p hp
    obtain ⟨h1, h2⟩ := hm p hp
    obtain ⟨ds, h3, h4⟩ := h.2 p.1 p.2 (Dict.get_of_mem hn h1)
    simp only [f, h3, Option.getD_some]
    rcases h4 with h4 | ⟨h4, -⟩
    · exact h4
    · rw [h4] at h2; simp at h2
  refine ⟨_, hch, ?_⟩
  obtain ⟨h1, h2, h3⟩ := choose_get ((severals net).map Prod.fst) (firsts net) ((severals net).map f) (hsub.nodup hn)
    (fun e he => by rw [keys_firsts]; exact hsub.subset he) (by simp)
  have hk : Dict.keys (choose (firsts net) ((severals net).map Prod.fst) ((severals net).map f)) = Dict.keys d := by
    rw [h1, keys_firsts, h.1]
  refine dict_ext hk (by rw [hk, h.1]; exact hn) fun x => ?_
  by_cases hx : x ∈ (severals net).map Prod.fst
  · obtain ⟨p, hp, rfl⟩ := List.mem_map.1 hx
    have hz : (p.1, f p) ∈ ((severals net).map Prod.fst).zip ((severals net).map f) := by
      rw [List.zip_map', List.mem_map]
      exact ⟨p, hp, rfl⟩
    rw [h3 _ hz]
    obtain ⟨ds, h4, -⟩ := h.2 p.1 p.2 (Dict.get_of_mem hn (hm p hp).1)
    simp only [f, h4, Option.getD_some]
  · rw [h2 x hx]
    unfold firsts
    rw [get_map_val (fun l : List (List κ) => l.headD [])]
    cases hg : Dict.get net x with
    | none =>
      rw [Dict.get_eq_none.2]
      · rfl
      · rw [h.1]; exact Dict.get_eq_none.1 hg
    | some alts =>
      obtain ⟨ds, h4, h5⟩ := h.2 x alts hg
      rw [h4]
      have : ¬ 1 < alts.length := fun h' => hx (List.mem_map.2 ⟨(x, alts), by simp [severals, Dict.mem_of_get hg, h'], rfl⟩)
      rcases h5 with h5 | ⟨rfl, rfl⟩
      · match alts, this, h5 with
        | [a], _, h5 => simp at h5; subst h5; rfl
        | [], _, h5 => cases h5
        | _ :: _ :: _, h, _ => exact absurd (by simp) h
      · rfl

/-- What the loop of `all_inds_and_deps` has computed after some combinations. -/
structure BestInv (three : κ → Bool) (ord : List κ → List κ) (tried : List (Dict κ (List κ))) (s : BestState κ) : Prop where
  small : ∀ d ∈ tried, ∃ scc I D, sccs d = .ok scc ∧ indepsAndDeps three ord scc d = .ok (I, D) ∧ D.length ≤ s.maxDeps
  best : (s.best = none ∧ s.maxDeps = 0) ∨ ∃ d ∈ tried, s.best = some d ∧ 0 < s.maxDeps ∧ s.deps.length = s.maxDeps ∧
    ∃ scc, sccs d = .ok scc ∧ indepsAndDeps three ord scc d = .ok (s.inds, s.deps)

theorem bestLoop (base : Dict κ (List κ)) (eqs : List κ) (chs : List (List (List κ)))
    (hok : ∀ ch ∈ chs, ∃ scc I D, sccs (choose base eqs ch) = .ok scc ∧ indepsAndDeps three ord scc (choose base eqs ch) = .ok (I, D)) :
    ∀ (tried : List (Dict κ (List κ))) (s : BestState κ), BestInv three ord tried s →
      ∃ s', forE (tryChoice three ord base eqs) chs s = .ok s' ∧ BestInv three ord (tried ++ chs.map (choose base eqs)) s' := by
  induction chs with
  | nil => exact fun tried s h => ⟨s, rfl, by simpa using h⟩
  | cons ch chs ih =>
    intro tried s h
    obtain ⟨scc, I, D, h1, h2⟩ := hok ch (by simp)
    have hstep : ∃ s1, tryChoice three ord base eqs s ch = .ok s1 ∧ BestInv three ord (tried ++ [choose base eqs ch]) s1 := by
      unfold tryChoice
      rw [h1]
      simp only
      rw [h2]
      simp only
      by_cases hlt : s.maxDeps < D.length
      · rw [if_pos hlt]
        refine ⟨_, rfl, ?_, Or.inr ⟨choose base eqs ch, by simp, rfl, by simp only; omega, rfl, scc, h1, h2⟩⟩
        intro d hd
        rcases List.mem_append.1 hd with hd | hd
        · obtain ⟨scc', I', D', k1, k2, k3⟩ := h.small d hd
          exact ⟨scc', I', D', k1, k2, by simp only; omega⟩
        · rw [List.mem_singleton.1 hd]
          exact ⟨scc, I, D, h1, h2, le_refl _⟩
      · rw [if_neg hlt]
        refine ⟨s, rfl, ?_, ?_⟩
        · intro d hd
          rcases List.mem_append.1 hd with hd | hd
          · exact h.small d hd
          · rw [List.mem_singleton.1 hd]
            exact ⟨scc, I, D, h1, h2, by omega⟩
        · rcases h.best with h | ⟨d, hd, h⟩
          · exact Or.inl h
          · exact Or.inr ⟨d, by simp [hd], h⟩
    obtain ⟨s1, e1, p1⟩ := hstep
    obtain ⟨s2, e2, p2⟩ := ih (fun c hc => hok c (by simp [hc])) _ s1 p1
    refine ⟨s2, by rw [forE, e1]; exact e2, ?_⟩
    simpa using p2

/-- Every set of every equation has keys only. -/
def ClosedAll (net : Dict κ (List (List κ))) : Prop :=
  ∀ e alts, Dict.get net e = some alts → ∀ ds ∈ alts, ∀ d ∈ ds, d ∈ Dict.keys net

theorem closed_of_alternative (hc : ClosedAll net) {d : Dict κ (List κ)} (h : Spec.Alternative net d) : Spec.Closed d := by
  rintro a b ⟨bs, hb, hm⟩
  rw [h.1]
  have ha : a ∈ Dict.keys net := by rw [← h.1]; exact Dict.mem_keys.2 (by rw [hb]; rfl)
  obtain ⟨alts, halts⟩ := Option.isSome_iff_exists.1 (Dict.mem_keys.1 ha)
  obtain ⟨ds, h1, h2⟩ := h.2 a alts halts
  rw [hb] at h1
  obtain rfl := Option.some.inj h1
  rcases h2 with h2 | ⟨-, rfl⟩
  · exact hc a alts halts bs h2 b hm
  · cases hm

/-- **C104.** `all_inds_and_deps(eq_net)`: if some choice of one set for every equation has a dependent equation, then the result is one of
these choices, with the independent and dependent equations of it (as in C103), and no other choice has more dependent equations. -/
theorem C104_best_partial (hn : (Dict.keys net).Nodup) (hc : ClosedAll net) (hord : ∀ l, (ord l).Perm l)
    (hsome : ∃ d scc I D, Spec.Alternative net d ∧ sccs d = .ok scc ∧ indepsAndDeps three ord scc d = .ok (I, D) ∧ D ≠ []) :
    ∃ I D best, allIndsAndDeps three ord net = .ok (I, D, best) ∧ Spec.Alternative net best ∧
      (∃ scc, sccs best = .ok scc ∧ indepsAndDeps three ord scc best = .ok (I, D)) ∧ Spec.Splits best I D ∧
      ((∀ e ds, three e = true → Dict.get best e = some ds → ds ≠ [] ∧ e ∉ ds) → ∀ d ∈ D, Spec.Follows best (· ∈ I) d) ∧
      ∀ d scc I' D', Spec.Alternative net d → sccs d = .ok scc → indepsAndDeps three ord scc d = .ok (I', D') → D'.length ≤ D.length := by
  have hall : ∀ d, Spec.Alternative net d → ∃ scc I D, sccs d = .ok scc ∧ indepsAndDeps three ord scc d = .ok (I, D) ∧ Spec.Splits d I D ∧
      ((∀ e ds, three e = true → Dict.get d e = some ds → ds ≠ [] ∧ e ∉ ds) → ∀ x ∈ D, Spec.Follows d (· ∈ I) x) := by
    intro d hd
    obtain ⟨cs, h1, h2⟩ := C102_sccs (net := d) (by rw [hd.1]; exact hn) (closed_of_alternative hc hd)
    obtain ⟨I, D, h3, h4, -, h5⟩ := C103_split (three := three) h2 (closed_of_alternative hc hd) hord
    exact ⟨_, I, D, h1, h3, h4, h5⟩
  obtain ⟨s, h1, h2⟩ := bestLoop (three := three) (ord := ord) (firsts net) ((severals net).map Prod.fst) (product ((severals net).map Prod.snd))
    (fun ch hch => by
      obtain ⟨scc, I, D, h1, h2, -⟩ := hall _ (alternative_choose hn hch)
      exact ⟨scc, I, D, h1, h2⟩) [] { maxDeps := 0, inds := [], deps := [], best := none } ⟨by simp, Or.inl ⟨rfl, rfl⟩⟩
  have hmax : ∀ d scc I' D', Spec.Alternative net d → sccs d = .ok scc → indepsAndDeps three ord scc d = .ok (I', D') →
      D'.length ≤ s.maxDeps := by
    intro d scc I' D' hd k1 k2
    obtain ⟨ch, hch, rfl⟩ := choose_alternative hn hd
    obtain ⟨scc', I2, D2, j1, j2, j3⟩ := h2.small _ (by
      rw [List.nil_append]
      exact List.mem_map.2 ⟨ch, hch, rfl⟩)
    rw [k1] at j1
    obtain rfl := Except.ok.inj j1
    rw [k2] at j2
    obtain ⟨rfl, rfl⟩ := Prod.mk.inj (Except.ok.inj j2)
    exact j3
  rcases h2.best with ⟨-, h0⟩ | ⟨d, hd, hb, -, hlen, scc, j1, j2⟩
  · obtain ⟨d, scc, I, D, k1, k2, k3, k4⟩ := hsome
    have := hmax d scc I D k1 k2 k3
    have := List.length_pos_iff.2 k4
    omega
  · rw [List.nil_append] at hd
    obtain ⟨ch, hch, rfl⟩ := List.mem_map.1 hd
    have halt := alternative_choose hn hch
    obtain ⟨scc', I2, D2, i1, i2, i3, i4⟩ := hall _ halt
    rw [j1] at i1
    obtain rfl := Except.ok.inj i1
    rw [j2] at i2
    obtain ⟨e1, e2⟩ := Prod.mk.inj (Except.ok.inj i2)
    refine ⟨s.inds, s.deps, _, ?_, halt, ⟨scc, j1, j2⟩, e1 ▸ e2 ▸ i3, e1 ▸ e2 ▸ i4, fun d scc I' D' k1 k2 k3 => hlen ▸ hmax d scc I' D' k1 k2 k3⟩
    unfold allIndsAndDeps
    simp only
    unfold severals firsts at h1
    rw [h1]
    simp only
    rw [hb]

/-- **C104 is false of the code** if no choice has a dependent equation: instead of returning all equations as independent,
`all_inds_and_deps` raises `UnboundLocalError`. -/
theorem C104_false_none (hn : (Dict.keys net).Nodup) (hc : ClosedAll net) (hord : ∀ l, (ord l).Perm l)
    (hnone : ∀ d scc I D, Spec.Alternative net d → sccs d = .ok scc → indepsAndDeps three ord scc d = .ok (I, D) → D = []) :
    allIndsAndDeps three ord net = .error .unboundLocalError := by
  have hall : ∀ d, Spec.Alternative net d → ∃ scc I D, sccs d = .ok scc ∧ indepsAndDeps three ord scc d = .ok (I, D) := by
    intro d hd
    obtain ⟨cs, h1, h2⟩ := C102_sccs (net := d) (by rw [hd.1]; exact hn) (closed_of_alternative hc hd)
    obtain ⟨I, D, h3, -⟩ := C103_split (three := three) h2 (closed_of_alternative hc hd) hord
    exact ⟨_, I, D, h1, h3⟩
  obtain ⟨s, h1, h2⟩ := bestLoop (three := three) (ord := ord) (firsts net) ((severals net).map Prod.fst) (product ((severals net).map Prod.snd))
    (fun ch hch => hall _ (alternative_choose hn hch)) [] { maxDeps := 0, inds := [], deps := [], best := none } ⟨by simp, Or.inl ⟨rfl, rfl⟩⟩
  rcases h2.best with ⟨hb, -⟩ | ⟨d, hd, hb, hpos, hlen, scc, j1, j2⟩
  · unfold allIndsAndDeps
    simp only
    unfold severals firsts at h1
    rw [h1]
    simp only
    rw [hb]
  · rw [List.nil_append] at hd
    obtain ⟨ch, hch, rfl⟩ := List.mem_map.1 hd
    have := hnone _ scc _ _ (alternative_choose hn hch) j1 j2
    rw [this] at hlen
    simp at hlen
    omega

end

/-- Equations with alternatives, for the examples. -/
def sampleAlts : Dict Nat (List (List Nat)) := [(1, []), (2, [[1, 3]]), (3, [[2], [1]]), (4, [[3], [1, 2]])]

example : (Dict.keys sampleAlts).Nodup ∧ ClosedAll sampleAlts := by
  refine ⟨by decide, ?_⟩
  intro e alts h
  have := Dict.mem_of_get h
  simp only [sampleAlts, List.mem_cons, Prod.mk.injEq, List.not_mem_nil, or_false] at this
  rcases this with ⟨-, rfl⟩ | ⟨-, rfl⟩ | ⟨-, rfl⟩ | ⟨-, rfl⟩ <;> decide
example : (allIndsAndDeps (fun _ => false) id sampleAlts).toOption =
    some ([1], [3, 4, 2], [(1, []), (2, [1, 3]), (3, [1]), (4, [3])]) := by decide +kernel
example : Spec.Alternative sampleAlts [(1, []), (2, [1, 3]), (3, [1]), (4, [3])] := by
  refine ⟨by decide, ?_⟩
  intro e alts h
  have := Dict.mem_of_get h
  simp only [sampleAlts, List.mem_cons, Prod.mk.injEq, List.not_mem_nil, or_false] at this
  rcases this with ⟨rfl, rfl⟩ | ⟨rfl, rfl⟩ | ⟨rfl, rfl⟩ | ⟨rfl, rfl⟩
  · exact ⟨[], rfl, by simp⟩
  · exact ⟨[1, 3], rfl, by simp⟩
  · exact ⟨[1], rfl, by simp⟩
  · exact ⟨[3], rfl, by simp⟩
/-- A case of `C104_false_none`. -/
example : allIndsAndDeps (fun _ => false) id [(1, []), (2, [])] = .error .unboundLocalError := by
  refine C104_false_none (by decide) ?_ (fun l => List.Perm.refl l) ?_
  · intro e alts h
    have := Dict.mem_of_get h
    simp only [List.mem_cons, Prod.mk.injEq, List.not_mem_nil, or_false] at this
    rcases this with ⟨-, rfl⟩ | ⟨-, rfl⟩ <;> simp
  · intro d scc I D hd h1 h2
    have hd' : d = [(1, []), (2, [])] := by
      refine dict_ext hd.1 (by rw [hd.1]; decide) fun x => ?_
      have hx := hd.2 x
      by_cases e1 : x = 1
      · subst e1
        obtain ⟨ds, h3, h4 | ⟨-, rfl⟩⟩ := hx [] rfl
        · cases h4
        · rw [h3]; rfl
      · by_cases e2 : x = 2
        · subst e2
          obtain ⟨ds, h3, h4 | ⟨-, rfl⟩⟩ := hx [] rfl
          · cases h4
          · rw [h3]; rfl
        · have : x ∉ Dict.keys d := by rw [hd.1]; simp [Dict.keys, e1, e2]
          rw [Dict.get_eq_none.2 this, Dict.get_eq_none.2 (by simp [Dict.keys, e1, e2])]
    subst hd'
    have e1 : sccs [(1, []), (2, [])] = .ok [(1, [2]), (2, [1])] := by decide +kernel
    rw [e1] at h1
    obtain rfl := Except.ok.inj h1
    have e2 : indepsAndDeps (fun _ => false) id [(1, [2]), (2, [1])] [(1, []), (2, [])] = .ok ([2, 1], ([] : List Nat)) := by decide +kernel
    rw [e2] at h2
    exact (Prod.mk.inj (Except.ok.inj h2)).2.symm

end Pymnet
