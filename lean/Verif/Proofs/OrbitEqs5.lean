import Verif.Proofs.OrbitEqs4
import Verif.Proofs.Full
import Verif.Proofs.Checks

/-! All the equations that `orbit_equations` returns. -/

set_option linter.unusedSectionVars false
set_option linter.unusedSimpArgs false
set_option linter.unusedVariables false

namespace Pymnet

open Py MPlex

variable {α W β σ : Type} [DecidableEq α] [DecidableEq W] [Zero W] [LawfulIntNames α] [LinearOrder α] [DecidableEq σ] [One W]
  {canon : CGraph → β} {str : List (List α × Nat) × β → σ} {allowed : Option (List Nat)} {c : Coupling α W}
  {idx : Nat → α} {layers : List α} {nl N n : Nat} {T : Tables α W σ} {ol : List (Orbit α)}
  {match? : CGraph → CGraph → Option (Dict Nat Nat)} {gens : CGraph → List (Dict Nat Nat)}
  {ord : Finset α → List α} {ops ops' ops1 ops2 : List (POp α W)} {s : Finset α}
  {p p1 p2 : MPlex α W} {g g1 g2 : Spec.Multigraph α} {A1 A2 : Finset α} {v : α} {q q1 q2 : Orbit α} {neg : α → Bool} {t : Nat} {int : Int → α}

theorem forE_inv {τ ι : Type} {f : τ → ι → Except Err τ} {P : τ → Prop} : ∀ (l : List ι) {s s' : τ}, forE f l s = .ok s' → P s →
    (∀ b ∈ l, ∀ s s', P s → f s b = .ok s' → P s') → P s'
  | [], s, s', e, h, _ => by cases e; exact h
  | b :: l, s, s', e, h, hs => by
    unfold forE at e
    cases hb : f s b with
    | error x => rw [hb] at e; cases e
    | ok s1 =>
      rw [hb] at e
      exact forE_inv l e (hs b (by simp) s s1 h hb) fun b' hb' => hs b' (by simp [hb'])

/-- the entries of the dictionary of automorphism orbits -/
theorem auts_entries (ok : GenOk canon str allowed c idx layers) (hG : Spec.FindsGens gens) {M : Nat}
    {nets : Dict Nat (List (MPlex α W))} {invs : Dict σ (Nat × Nat)} {auts : Dict (Orbit α) α}
    (hT : NInv canon str allowed c idx nl layers M (nets, invs)) (e : automorphismOrbitsAll gens allowed nets = .ok auts) :
    (Dict.keys auts).Nodup ∧ ∀ m k x, (m, k, x) ∈ Dict.keys auts →
      ∃ ops, Stored nets m k (afterP [c] false 0 true ops) ∧ (Spec.shown ops).node x := by
  unfold automorphismOrbitsAll at e
  refine forE_inv (P := fun (auts : Dict (Orbit α) α) => (Dict.keys auts).Nodup ∧ ∀ m k x, (m, k, x) ∈ Dict.keys auts →
      ∃ ops, Stored nets m k (afterP [c] false 0 true ops) ∧ (Spec.shown ops).node x) _ e ⟨List.nodup_nil, fun m k x h => (nomatch h)⟩ ?_
  intro m hm a a' ha e1
  obtain ⟨l, hl⟩ := Option.isSome_iff_exists.1 (Dict.mem_keys.1 hm)
  simp only [hl] at e1
  refine forE_inv (P := fun (auts : Dict (Orbit α) α) => (Dict.keys auts).Nodup ∧ ∀ m k x, (m, k, x) ∈ Dict.keys auts →
      ∃ ops, Stored nets m k (afterP [c] false 0 true ops) ∧ (Spec.shown ops).node x) _ e1 ha ?_
  rintro ⟨p, j⟩ hp a a' ha e2
  have hj : Stored nets m j p := ⟨l, hl, List.mem_zipIdx_iff_getElem?.1 hp⟩
  obtain ⟨out, e3, hnd, ho⟩ := stored_orbits ok hG hT hj
  dsimp only at e2
  rw [e3] at e2
  cases e2
  obtain ⟨ops, rfl, -⟩ := hT.gen _ _ _ hj
  obtain ⟨h1, -⟩ := ho ops rfl
  have key : ∀ (d : Dict α α) (a : Dict (Orbit α) α), (∀ x ∈ Dict.keys d, (Spec.shown ops).node x) →
      ((Dict.keys a).Nodup ∧ ∀ m k x, (m, k, x) ∈ Dict.keys a →
      ∃ ops, Stored nets m k (afterP [c] false 0 true ops) ∧ (Spec.shown ops).node x) →
      ((Dict.keys (d.foldl (fun a r => Dict.set a (m, j, r.1) r.2) a)).Nodup ∧
        ∀ m' k x, (m', k, x) ∈ Dict.keys (d.foldl (fun a r => Dict.set a (m, j, r.1) r.2) a) →
      ∃ ops, Stored nets m' k (afterP [c] false 0 true ops) ∧ (Spec.shown ops).node x) := by
    intro d
    induction d with
    | nil => intro a _ h; exact h
    | cons r d ih =>
      intro a hd h
      refine ih _ (fun x hx => hd x (by simp only [Dict.keys, List.map_cons]; exact List.mem_cons_of_mem _ hx))
        ⟨Dict.nodup_keys_set h.1 _ _, fun m' k x hx => ?_⟩
      rw [Dict.mem_keys, Dict.get_set] at hx
      split at hx
      · rename_i e
        obtain ⟨rfl, rfl, rfl⟩ : m = m' ∧ j = k ∧ r.1 = x := by simpa [eq_comm] using e
        exact ⟨ops, hj, hd _ (by simp [Dict.keys])⟩
      · exact h.2 m' k x (Dict.mem_keys.2 hx)
  exact key out a (fun x hx => (h1 x).1 hx) ha

/-- the lists of orbits -/
theorem Setup.listed (S : Setup canon str match? allowed c idx layers nl N ord T ol) (hN : 2 ≤ N)
    (ha : (Dict.keys T.auts).Nodup ∧ ∀ m k x, (m, k, x) ∈ Dict.keys T.auts →
      ∃ ops, Stored T.nets m k (afterP [c] false 0 true ops) ∧ (Spec.shown ops).node x) (m k : Nat) (o : α) :
    (∃ i x o', ((m, i, x), o') ∈ T.auts ∧ ((m, k, o) : Orbit α) = (m, i, o')) ↔ (m, k, o) ∈ ol := by
  rw [S.ol]
  constructor
  · rintro ⟨i, x, o', h, e⟩
    obtain ⟨rfl, rfl⟩ : k = i ∧ o = o' := by simpa using e
    obtain ⟨ops, h1, h2⟩ := ha.2 m k x (List.mem_map_of_mem (f := Prod.fst) h)
    refine ⟨?_, ops, x, h1, h2, Dict.get_of_mem ha.1 h⟩
    obtain ⟨l, hl, -⟩ := h1
    have := ((S.tab.keys m).1 (by rw [show Dict.get (T.nets, T.invs).1 m = some l from hl]; rfl)).2
    rwa [max_eq_left hN] at this
  · rintro ⟨-, ops, x, -, -, h⟩
    exact ⟨k, x, o, Dict.mem_of_get h, rfl⟩

/-- there are orbits of every size -/
theorem Setup.exists_orbit (S : Setup canon str match? allowed c idx layers nl N ord T ol) (h1 : 1 ≤ nl) (h2 : nl ≤ layers.length)
    {m : Nat} (hm : 2 ≤ m) (hmN : m ≤ N) : ∃ k o, (m, k, o) ∈ ol := by
  have hsub : (layers.take nl).Sublist layers := List.take_sublist _ _
  have hlen : (layers.take nl).length = nl := by rw [List.length_take]; omega
  obtain ⟨y, hy⟩ := List.exists_mem_of_length_pos (l := layers.take nl) (by omega)
  obtain ⟨k, ops, hst, hg, -⟩ := S.tab.all S.nodes m hm (hmN.trans (le_max_left _ _))
    ⟨fun x => x ∈ (List.range m).map idx, fun x => x ∈ layers.take nl,
      fun x i j => x ∈ layers.take nl ∧ i ∈ (List.range m).map idx ∧ j ∈ (List.range m).map idx ∧ i ≠ j⟩
    ⟨⟨(List.range m).map idx, List.nodup_range.map S.ok.idx, by simp, fun x => Iff.rfl⟩,
      ⟨layers.take nl, hsub, hlen, fun x => Iff.rfl⟩, fun i j hi hj => by
        by_cases hij : i = j
        · rw [hij]
        · exact .single ⟨hi, hj, y, hy, hy, hi, hj, hij⟩⟩
    (fun x i j ⟨a, b, c, d⟩ => ⟨a, c, b, Ne.symm d⟩) (fun x i ⟨_, _, _, d⟩ => d rfl)
  have hnode : (Spec.shown ops).node (idx 0) := (hg.nodes _).2 ⟨0, by omega, rfl⟩
  obtain ⟨o, ho, -⟩ := S.auts.val m k ops hst _ hnode
  exact ⟨k, o, (S.ol _).2 ⟨hmN, ops, _, hst, hnode, ho⟩⟩

/-- the pairs of orbits, in the order in which they are combined -/
def pairsOf (T : Tables α W σ) (n : Nat) (q1 : Orbit α) : List (Orbit α × Orbit α) :=
  (listOrbits T.auts).flatMap fun e => if q1.1 + e.1 - 1 ≤ n then e.2.map fun q2 => (q1, q2) else []

def allPairs (T : Tables α W σ) (n : Nat) : List (Orbit α × Orbit α) :=
  (List.range' 2 (min (n + 1) 4 - 2)).flatMap fun n1 => ((Dict.get (listOrbits T.auts) n1).getD []).flatMap fun q1 => pairsOf T n q1

theorem orbitEquations_flat (B : Backend α β σ) (T : Tables α W σ) (int : Int → α) (neg : α → Bool) (ord : Finset α → List α) (n : Nat)
    (h : ∀ n1 ∈ List.range' 2 (min (n + 1) 4 - 2), ∃ l, Dict.get (listOrbits T.auts) n1 = some l) :
    orbitEquations B T int neg ord n = forE (fun eqs (qq : Orbit α × Orbit α) => equationStep B T int neg ord qq.1 eqs qq.2) (allPairs T n) [] := by
  unfold orbitEquations allPairs
  rw [← forE_flatMap]
  have h1 : ∀ q1 eqs, forE (equationsOf B T int neg ord n q1) (listOrbits T.auts) eqs =
      forE (fun eqs (qq : Orbit α × Orbit α) => equationStep B T int neg ord qq.1 eqs qq.2) (pairsOf T n q1) eqs := by
    intro q1 eqs
    unfold pairsOf
    rw [← forE_flatMap]
    congr 1
    funext eqs e
    unfold equationsOf
    split
    · rw [forE_map]
    · rfl
  have : ∀ (l : List Nat) (eqs), (∀ n1 ∈ l, ∃ l, Dict.get (listOrbits T.auts) n1 = some l) →
      forE (equationsAt B T int neg ord n) l eqs =
      forE (fun s x => forE (fun eqs (qq : Orbit α × Orbit α) => equationStep B T int neg ord qq.1 eqs qq.2)
        (((Dict.get (listOrbits T.auts) x).getD []).flatMap fun q1 => pairsOf T n q1) s) l eqs := by
    intro l
    induction l with
    | nil => intro _ _; rfl
    | cons m l ih =>
      intro eqs hl
      obtain ⟨l', hl'⟩ := hl m (by simp)
      have : equationsAt B T int neg ord n eqs m = forE (fun eqs (qq : Orbit α × Orbit α) => equationStep B T int neg ord qq.1 eqs qq.2)
        (((Dict.get (listOrbits T.auts) m).getD []).flatMap fun q1 => pairsOf T n q1) eqs := by
        unfold equationsAt
        rw [hl', ← forE_flatMap]
        simp only [Option.getD_some]
        congr 1
        funext eqs q1
        exact h1 q1 eqs
      simp only [forE]
      rw [this]
      cases forE (fun eqs (qq : Orbit α × Orbit α) => equationStep B T int neg ord qq.1 eqs qq.2)
        (((Dict.get (listOrbits T.auts) m).getD []).flatMap fun q1 => pairsOf T n q1) eqs with
      | error e => rfl
      | ok s => exact ih s fun n1 h => hl n1 (by simp [h])
  exact this _ _ h

/-- the key of the equation of two orbits -/
def keyOf (q1 q2 : Orbit α) : OrbitKey α := if q1 = q2 then [(q1, 2)] else [(q2, 1), (q1, 1)]

/-- Somewhere in the list there is the pair, and not before it the pair with its members exchanged. -/
def FirstOf (same : Orbit α → Orbit α → Prop) (pairs : List (Orbit α × Orbit α)) (q1 q2 : Orbit α) : Prop :=
  ∃ pre post, pairs = pre ++ (q1, q2) :: post ∧ (same q2 q1 → q1 ≠ q2 → (q2, q1) ∉ pre)

/-- the result of all the steps, given the equation of every pair -/
theorem steps_ok {B : Backend α β σ} {same : Orbit α → Orbit α → Prop} {eqn : Orbit α → Orbit α → Dict (Orbit α) ℚ}
    (pairs : List (Orbit α × Orbit α))
    (hs : ∀ qq ∈ pairs, same qq.1 qq.2 → orbitEquation B T int neg ord qq.1 qq.2 =
      .ok (some (keyOf qq.1 qq.2, eqn qq.1 qq.2)))
    (hd : ∀ qq ∈ pairs, ¬ same qq.1 qq.2 → orbitEquation B T int neg ord qq.1 qq.2 = .ok none) :
    ∃ eqs, forE (fun eqs (qq : Orbit α × Orbit α) => equationStep B T int neg ord qq.1 eqs qq.2) pairs [] = .ok eqs ∧
      (∀ key eq, Dict.get eqs key = some eq → ∃ q1 q2, (q1, q2) ∈ pairs ∧ same q1 q2 ∧
        key = (keyOf q1 q2) ∧ eq = eqn q1 q2 ∧ Dict.has eqs [(q1, 1), (q2, 1)] = false ∧ FirstOf same pairs q1 q2) ∧
      ∀ q1 q2, (q1, q2) ∈ pairs → same q1 q2 →
        Dict.has eqs (keyOf q1 q2) = true ∨ Dict.has eqs [(q1, 1), (q2, 1)] = true := by
  refine forE_ok (P := fun pre (eqs : Dict (OrbitKey α) (Dict (Orbit α) ℚ)) =>
      (∀ key eq, Dict.get eqs key = some eq → ∃ q1 q2, (q1, q2) ∈ pairs ∧ same q1 q2 ∧
        key = (keyOf q1 q2) ∧ eq = eqn q1 q2 ∧ Dict.has eqs [(q1, 1), (q2, 1)] = false ∧ FirstOf same pairs q1 q2) ∧
      ∀ q1 q2, (q1, q2) ∈ pre → same q1 q2 →
        Dict.has eqs (keyOf q1 q2) = true ∨ Dict.has eqs [(q1, 1), (q2, 1)] = true)
    (s := ([] : Dict (OrbitKey α) (Dict (Orbit α) ℚ))) pairs ⟨fun key eq h => (nomatch h), fun q1 q2 h => (nomatch h)⟩ ?_
  rintro pre ⟨a, b⟩ post eqs hl ⟨k1, k2⟩
  have hab : (a, b) ∈ pairs := by rw [hl]; simp
  dsimp only
  unfold equationStep
  by_cases hh : Dict.has eqs [(a, 1), (b, 1)] = true
  · rw [if_pos hh]
    refine ⟨_, rfl, k1, fun q1 q2 hq hs' => ?_⟩
    rcases List.mem_append.1 hq with h | h
    · exact k2 q1 q2 h hs'
    · obtain ⟨rfl, rfl⟩ : q1 = a ∧ q2 = b := by simpa using h
      exact Or.inr hh
  · rw [if_neg hh]
    by_cases hsame : same a b
    · rw [hs _ hab hsame]
      have hmono : ∀ key, Dict.has eqs key = true →
          Dict.has (Dict.set eqs (keyOf a b) (eqn a b)) key = true := by
        intro key h
        unfold Dict.has at h ⊢
        rw [Dict.get_set]
        split
        · rfl
        · exact h
      have hhas : ∀ key, Dict.has (Dict.set eqs (keyOf a b) (eqn a b)) key = true →
          key = (keyOf a b) ∨ Dict.has eqs key = true := by
        intro key h
        unfold Dict.has at h ⊢
        rw [Dict.get_set] at h
        split at h
        · rename_i e; exact Or.inl e.symm
        · exact Or.inr h
      refine ⟨_, rfl, fun key eq hk => ?_, fun q1 q2 hq hs' => ?_⟩
      · dsimp only at hk
        rw [Dict.get_set] at hk
        split at hk
        · rename_i e
          cases hk
          refine ⟨a, b, hab, hsame, e.symm, rfl, ?_, ?_⟩
          swap
          · by_cases hpre : same b a → a ≠ b → (b, a) ∉ pre
            · exact ⟨pre, post, hl, hpre⟩
            · push Not at hpre
              obtain ⟨z1, z2, z3⟩ := hpre
              rcases k2 b a z3 z1 with h | h
              · rw [keyOf, if_neg (Ne.symm z2)] at h
                exact absurd h hh
              · obtain ⟨eq', he'⟩ := Option.isSome_iff_exists.1 h
                obtain ⟨q1, q2, -, -, c3, -, -, c6⟩ := k1 _ eq' he'
                unfold keyOf at c3
                split at c3
                · simp at c3
                · obtain ⟨rfl, rfl⟩ : b = q2 ∧ a = q1 := by simpa using c3
                  exact c6
          rw [← Bool.not_eq_true]
          intro h
          rcases hhas _ h with h | h
          · unfold keyOf at h
            split at h
            · simp at h
            · rename_i hne
              have := List.cons.inj h
              exact hne (Prod.mk.inj this.1).1
          · exact hh h
        · obtain ⟨q1, q2, c1, c2, c3, c4, c5, c6⟩ := k1 key eq hk
          refine ⟨q1, q2, c1, c2, c3, c4, ?_, c6⟩
          rw [← Bool.not_eq_true]
          intro h
          rcases hhas _ h with h | h
          · unfold keyOf at h
            split at h
            · simp at h
            · rename_i hne
              obtain ⟨rfl, rfl⟩ : q1 = b ∧ q2 = a := by simpa using h
              rw [keyOf, if_neg (Ne.symm hne)] at c3
              apply hh
              unfold Dict.has
              rw [← c3, hk]
              rfl
          · rw [c5] at h; cases h
      · rcases List.mem_append.1 hq with h | h
        · exact (k2 q1 q2 h hs').imp (hmono _) (hmono _)
        · obtain ⟨rfl, rfl⟩ : q1 = a ∧ q2 = b := by simpa using h
          left
          unfold Dict.has
          rw [Dict.get_set, if_pos rfl]
          rfl
    · rw [hd _ hab hsame]
      refine ⟨_, rfl, k1, fun q1 q2 hq hs' => ?_⟩
      rcases List.mem_append.1 hq with h | h
      · exact k2 q1 q2 h hs'
      · obtain ⟨rfl, rfl⟩ : q1 = a ∧ q2 = b := by simpa using h
        exact absurd hs' hsame

end Pymnet
