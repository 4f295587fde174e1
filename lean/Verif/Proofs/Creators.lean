import Verif.Proofs.Full
import Verif.Proofs.Assign
import Verif.Proofs.Looks
import Verif.Spec.Creators
import Verif.Props.Assign

/-! Facts about the generators of `sampling/creators.py` and about `geo` and `ws`. -/

set_option linter.unusedSectionVars false
set_option linter.unusedSimpArgs false

namespace Pymnet

open Py MPlex

variable {α W : Type} [DecidableEq α] [DecidableEq W] [Zero W] [One W]

theorem erPartNodes_ok (ix : Nat → α) (nodes : List (List α)) :
    ∃ m, (erPartNodes ix nodes : Except Err (MNet α W)) = .ok m ∧ Built m 1 0 false false
      (fun k x => (k = 0 ∧ ∃ y ∈ nodes.zipIdx, x ∈ y.1) ∨ (k = 1 ∧ ∃ y ∈ nodes.zipIdx, x = ix y.2))
      (fun nl => ∃ y ∈ nodes.zipIdx, ∃ n ∈ y.1, nl = [n, ix y.2]) (fun _ _ => 0) := by
  unfold erPartNodes
  refine forE_ok (P := fun pre m => Built m 1 0 false false
    (fun k x => (k = 0 ∧ ∃ y ∈ pre, x ∈ y.1) ∨ (k = 1 ∧ ∃ y ∈ pre, x = ix y.2))
      (fun nl => ∃ y ∈ pre, ∃ n ∈ y.1, nl = [n, ix y.2]) (fun _ _ => 0)) nodes.zipIdx
    ((Built.init 1 (0 : W) false false).congr (by simp) (by simp) (by simp)) ?_
  intro pre y post m1 _ h1
  obtain ⟨m2, e2, h2⟩ := h1.addLayer (ix y.2) le_rfl
  obtain ⟨m3, e3, h3⟩ := h2.addNodeLs le_rfl rfl (fun n => [n, ix y.2]) y.1 (by simp)
    (g := fun (m : MNet α W) n => (m.addNode n (some (.el (ix y.2)))).toExcept)
    (fun m n n' t _ h => by cases h; rfl)
  refine ⟨m3, by rw [e2]; exact e3, h3.congr (fun k x => ?_) (fun nl => ?_) (fun _ _ => rfl)⟩
  · simp only [List.mem_append, List.mem_singleton, or_and_right, exists_or, exists_eq_left]
    match k with
    | 0 =>
      constructor
      · rintro (((⟨-, h⟩ | ⟨h, -⟩) | ⟨h, -⟩) | ⟨n, hn, h⟩)
        · exact .inl ⟨rfl, .inl h⟩
        · cases h
        · cases h
        · have : n = x := by simpa using h
          exact .inl ⟨rfl, .inr (this ▸ hn)⟩
      · rintro (⟨-, h | h⟩ | ⟨h, -⟩)
        · exact .inl (.inl (.inl ⟨rfl, h⟩))
        · exact .inr ⟨x, h, rfl⟩
        · cases h
    | 1 =>
      constructor
      · rintro (((⟨h, -⟩ | ⟨-, h⟩) | ⟨-, h⟩) | ⟨n, hn, h⟩)
        · cases h
        · exact .inr ⟨rfl, .inl h⟩
        · exact .inr ⟨rfl, .inr h⟩
        · exact .inr ⟨rfl, .inr (by simpa using h.symm)⟩
      · rintro (⟨h, -⟩ | ⟨-, h | h⟩)
        · cases h
        · exact .inl (.inl (.inr ⟨rfl, h⟩))
        · exact .inl (.inr ⟨rfl, h⟩)
    | k + 2 => simp
  · simp only [List.mem_append, List.mem_singleton, or_and_right, exists_or, exists_eq_left]

/-- a multiplex network with one aspect under construction, in both forms -/
theorem BuiltX.toP {p : MPlex α W} {c : Coupling α W} {al : Bool} {S : α → Prop} {LY : Nat → α → Prop} {NL : α → List α → Prop}
    {R : List α → α → α → W} (h : BuiltX p [c] false 0 al True S LY NL R) :
    BuiltP p c al S (LY 1) (fun n s => NL n [s]) (fun s => R [s]) := by
  obtain ⟨ops, h0, h1, h2, h3, h4, h5⟩ := h
  refine ⟨ops, h0, h1 trivial, h2, fun s => ?_, fun ha n s => h4 ha n [s] rfl, fun s i j => h5 [s] i j rfl⟩
  rw [hasLayer_one]
  exact h3 1 s le_rfl le_rfl

theorem BuiltP.nodesLoop {p : MPlex α W} {c : Coupling α W} {al : Bool} {S LY : α → Prop} {NL : α → α → Prop}
    {R : α → α → α → W} (h : BuiltP p c al S LY NL R) (l : List α) :
    ∃ p', forE (fun (q : MPlex α W) v => (q.addNode v none).toExcept) l p = .ok p' ∧
      BuiltP p' c al (fun x => S x ∨ x ∈ l) LY NL R := by
  refine forE_ok (P := fun pre p' => BuiltP p' c al (fun x => S x ∨ x ∈ pre) LY NL R) l
    (h.congr (by simp) (by simp) (by simp) (by simp)) ?_
  intro pre b post m1 _ h1
  obtain ⟨m2, e, h2⟩ := h1.addNode b
  refine ⟨m2, e, h2.congr (fun x => ?_) (fun _ => Iff.rfl) (fun _ _ => Iff.rfl) (fun _ _ _ => rfl)⟩
  simp only [List.mem_append, List.mem_singleton, or_assoc]

open Classical in
/-- one layer of `geo` -/
theorem geoLayer_ok {P : Type} {ix : Nat → α} {n : Nat} (hn : 2 ≤ n) {gen : Nat → ℝ → Option P → GeoGraph α P} {p : MPlex α W}
    {c : Coupling α W} {S LY : α → Prop} {NL : α → α → Prop} {R : α → α → α → W} (h : BuiltP p c true S LY NL R) (pos : Option P)
    (x : Nat × Nat) (hg : Spec.IsGraph (gen x.2 (geoRadius n x.1) pos)) :
    ∃ p', geoLayer ix n gen (p, pos) x = .ok (p', some (gen x.2 (geoRadius n x.1) pos).pos) ∧
      BuiltP p' c true (fun y => S y ∨ y ∈ (gen x.2 (geoRadius n x.1) pos).nodes) (fun t => LY t ∨ t = ix x.2) NL
        (fun t a b => if t = ix x.2 ∧ ((a, b) ∈ (gen x.2 (geoRadius n x.1) pos).edges ∨
          (b, a) ∈ (gen x.2 (geoRadius n x.1) pos).edges) then 1 else R t a b) := by
  obtain ⟨p1, e1, h1⟩ := h.addLayer (ix x.2)
  generalize hG : gen x.2 (geoRadius n x.1) pos = g at *
  obtain ⟨p2, e2, h2⟩ := h1.nodesLoop g.nodes
  obtain ⟨p3, e3, h3⟩ := h2.writes g.edges (fun _ => True) Prod.fst Prod.snd (fun _ => ix x.2) (fun e he _ => (hg e he).2.2)
    (g := fun (q : MPlex α W) e => (q.setItem [e.1, e.2, ix x.2] 1).toExcept) (fun m e _ _ => ⟨_, addresses_one, rfl⟩)
    (fun m e _ h => absurd trivial h)
  refine ⟨p3, ?_, (BuiltP.anyNL h3 (NL' := NL)).congr (fun y => ?_) (fun t => ?_) (fun _ _ => Iff.rfl) (fun t a b => ?_)⟩
  · unfold geoLayer
    simp only [e1]
    rw [if_neg (by omega), hG]
    simp only [e2, e3]
  · constructor
    · rintro (h | ⟨e, he, -, rfl | rfl⟩)
      · exact h
      · exact .inr (hg e he).1
      · exact .inr (hg e he).2.1
    · exact .inl
  · constructor
    · rintro (h | ⟨e, he, -, h⟩)
      · exact h
      · exact .inr h
    · exact .inl
  · refine ite_iff ⟨?_, ?_⟩
    · rintro ⟨e, he, -, ht, ⟨rfl, rfl⟩ | ⟨rfl, rfl⟩⟩
      · exact ⟨ht, .inl he⟩
      · exact ⟨ht, .inr he⟩
    · rintro ⟨ht, he | he⟩
      · exact ⟨_, he, trivial, ht, .inl ⟨rfl, rfl⟩⟩
      · exact ⟨_, he, trivial, ht, .inr ⟨rfl, rfl⟩⟩

theorem geoRadius_spec {n : Nat} (hn : 2 ≤ n) (m : Nat) : Spec.IsRadius n m (geoRadius n m) := by
  refine ⟨Real.sqrt_nonneg _, ?_⟩
  have hn' : (2 : ℝ) ≤ n := by exact_mod_cast hn
  have h1 : (0 : ℝ) < (n - 1) * n := mul_pos (by linarith) (by linarith)
  have hp := Real.pi_pos
  unfold geoRadius
  rw [Real.sq_sqrt (div_nonneg (div_nonneg (by positivity) h1.le) hp.le)]
  have hn1 : (n : ℝ) - 1 ≠ 0 := by linarith
  have hn0 : (n : ℝ) ≠ 0 := by linarith
  field_simp
  ring

theorem wsNeighbors_spec {n : Nat} (hn : n ≠ 0) (m : Nat) : Spec.IsNeighbors n m (wsNeighbors n m) := by
  have h0 : 0 < n := Nat.pos_of_ne_zero hn
  unfold wsNeighbors
  have h1 := Nat.div_add_mod (2 * m + (n - 1)) n
  have h2 := Nat.mod_lt (2 * m + (n - 1)) h0
  refine ⟨by omega, fun k' hk => ?_⟩
  rw [Nat.div_le_iff_le_mul_add_pred h0]
  omega

/-- one layer of `ws` -/
theorem wsLayer_ok {ix : Nat → α} {n : Nat} (hn : n ≠ 0) {gen : Nat → Nat → MNet α W} {p : MPlex α W}
    {c : Coupling α W} {S LY : α → Prop} {NL : α → α → Prop} {R : α → α → α → W} (h : BuiltP p c true S LY NL R) (x : Nat × Nat)
    {Sg : Nat → α → Prop} {NLg : List α → Prop} {Rg : List α → List α → W}
    (hg : Spec.Looks (gen x.2 (wsNeighbors n x.1)) 0 0 false true Sg NLg Rg) (hself : ∀ i, Rg [i] [i] = 0) :
    ∃ p', wsLayer ix n gen p x = .ok p' ∧
      BuiltP p' c true (fun y => S y ∨ Sg 0 y) (fun t => LY t ∨ t = ix x.2) NL
        (fun t a b => if t = ix x.2 then Rg [a] [b] else R t a b) := by
  obtain ⟨p1, e1, ops, rfl, h1, h2, h3, h4, h5⟩ := h.addLayer (ix x.2)
  have hs : Spec.HasLayer [c].length true ops (.ofList [ix x.2]) := (h3 _).2 (.inr rfl)
  obtain ⟨ops', e2, hr⟩ := C113_assign_partial (cs := [c]) (by simp) false 0 ops hs hg
  refine ⟨afterP [c] false 0 true ops', ?_, ops', rfl, hr.noself h1 hself, fun y => ?_, fun t => ?_, fun ha => (nomatch ha),
    fun t a b => ?_⟩
  · unfold wsLayer
    rw [e1]
    simp only
    rw [if_neg hn]
    have e3 : (afterP [c] false 0 true ops).assignA (.el (ix x.2)) (gen x.2 (wsNeighbors n x.1)) =
      (afterP [c] false 0 true ops', none) := e2
    rw [e3]
    rfl
  · exact (hr.nodes y).trans (or_congr (h2 y) Iff.rfl)
  · rw [hasLayer_one]
    refine (hr.layers 1 t le_rfl le_rfl).trans ?_
    rw [← h3, hasLayer_one]; rfl
  · refine (hr.link [t] a b rfl).trans ?_
    dsimp only
    by_cases ht : t = ix x.2
    · rw [if_pos ht, if_pos (by rw [ht])]
    · rw [if_neg ht, if_neg (by simpa using ht)]
      exact h5 t a b

end Pymnet
