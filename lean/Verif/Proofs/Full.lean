import Verif.Proofs.ErLayers

/-! Nested loops of writes: full networks and `er_multilayer`. -/

set_option linter.unusedSectionVars false

namespace Pymnet

open Py Models

section
variable {σ β γ : Type}

theorem forE_map (f : σ → γ → Except Err σ) (g : β → γ) (l : List β) (s : σ) :
    forE f (l.map g) s = forE (fun s b => f s (g b)) l s := by
  induction l generalizing s with
  | nil => rfl
  | cons b t ih =>
    simp only [List.map_cons, forE]
    cases f s (g b) with
    | error e => rfl
    | ok s => exact ih s

/-- two nested loops are one loop over the pairs -/
theorem forE_nest (g : σ → β → γ → Except Err σ) (l1 : List β) (l2 : β → List γ) (s : σ) :
    forE (fun s a => forE (fun s b => g s a b) (l2 a) s) l1 s =
      forE (fun s (ab : β × γ) => g s ab.1 ab.2) (l1.flatMap fun a => (l2 a).map (Prod.mk a)) s := by
  induction l1 generalizing s with
  | nil => rfl
  | cons a t ih =>
    rw [List.flatMap_cons, forE_append, forE_map]
    simp only [forE]
    cases forE (fun s b => g s a b) (l2 a) s with
    | error e => rfl
    | ok s => exact ih s

end

variable {α W : Type} [DecidableEq α] [DecidableEq W] [Zero W] [One W]

omit [DecidableEq α] [DecidableEq W] [Zero W] [One W] in
theorem ite_iff {A B : Prop} {i : Decidable A} {j : Decidable B} {x y : W} (h : A ↔ B) :
    (@ite W A i x y) = @ite W B j x y := by
  by_cases hA : A
  · rw [if_pos hA, if_pos (h.1 hA)]
  · rw [if_neg hA, if_neg (fun hB => hA (h.2 hB))]

omit [DecidableEq α] [DecidableEq W] [Zero W] [One W] in
theorem ite_or_iff {A B C : Prop} {i : Decidable A} {j : Decidable B} {k : Decidable C} {x y : W} (h : A ∨ B ↔ C) :
    (@ite W B j x (@ite W A i x y)) = @ite W C k x y := by
  by_cases hA : A <;> by_cases hB : B <;> simp [← h, hA, hB]

theorem ite_or {A B : Prop} [Decidable A] [Decidable B] [Decidable (A ∨ B)] {x y : W} :
    (if B then x else if A then x else y) = if A ∨ B then x else y := by
  by_cases hA : A <;> by_cases hB : B <;> simp [hA, hB]

open Classical in
/-- a loop that writes the links of the elements satisfying `q` -/
theorem BuiltM.writes {β : Type} {m : MNet α W} {S : α → Prop} {R : α → α → W} (h : BuiltM m S R) (l : List β)
    (q : β → Prop) (u v : β → α) (hne : ∀ y ∈ l, q y → u y ≠ v y) {g : MNet α W → β → Except Err (MNet α W)}
    (hg : ∀ m, ∀ y ∈ l, q y → g m y = (m.setItem [u y, v y] 1).toExcept) (hg' : ∀ m, ∀ y ∈ l, ¬ q y → g m y = .ok m) :
    ∃ m', forE g l m = .ok m' ∧ BuiltM m' (fun x => S x ∨ ∃ y ∈ l, q y ∧ (x = u y ∨ x = v y))
      (fun a b => if ∃ y ∈ l, q y ∧ ((a = u y ∧ b = v y) ∨ (a = v y ∧ b = u y)) then 1 else R a b) := by
  refine forE_ok (P := fun pre m' => BuiltM m' (fun x => S x ∨ ∃ y ∈ pre, q y ∧ (x = u y ∨ x = v y))
      (fun a b => if ∃ y ∈ pre, q y ∧ ((a = u y ∧ b = v y) ∨ (a = v y ∧ b = u y)) then 1 else R a b)) l
    (fills_net.congr h (by simp) (by simp)) ?_
  intro pre y post m1 hl h1
  have hy : y ∈ l := by simp [hl]
  by_cases hq : q y
  · obtain ⟨m2, e1, e2⟩ := h1.set (hne y hy hq) 1
    refine ⟨m2, (hg m1 y hy hq).trans e1, fills_net.congr e2 (fun x => ?_) (fun a b => ?_)⟩
    · simp only [List.mem_append, List.mem_singleton, or_and_right, exists_or, exists_eq_left, hq, true_and, or_assoc]
    · rw [upd, ite_or]
      refine if_congr ?_ rfl rfl
      simp only [List.mem_append, List.mem_singleton, or_and_right, exists_or, exists_eq_left, hq, true_and]
  · refine ⟨m1, hg' m1 y hy hq, fills_net.congr h1 (fun x => ?_) (fun a b => if_congr ?_ rfl rfl)⟩
    · simp only [List.mem_append, List.mem_singleton, or_and_right, exists_or, exists_eq_left, hq, false_and, or_false]
    · simp only [List.mem_append, List.mem_singleton, or_and_right, exists_or, exists_eq_left, hq, false_and, or_false]

open Classical in
/-- the same on a multiplex network, on the layer `s y` -/
theorem BuiltP.writes {β : Type} {p : MPlex α W} {c : Coupling α W} {al : Bool} {S LY : α → Prop} {NL : α → α → Prop}
    {R : α → α → α → W} (h : BuiltP p c al S LY NL R) (l : List β)
    (q : β → Prop) (u v s : β → α) (hne : ∀ y ∈ l, q y → u y ≠ v y) {g : MPlex α W → β → Except Err (MPlex α W)}
    (hg : ∀ m, ∀ y ∈ l, q y → ∃ item, Spec.Addresses 1 item [u y, s y] [v y, s y] ∧ g m y = (m.setItem item 1).toExcept)
    (hg' : ∀ m, ∀ y ∈ l, ¬ q y → g m y = .ok m) :
    ∃ p', forE g l p = .ok p' ∧ BuiltP p' c al (fun x => S x ∨ ∃ y ∈ l, q y ∧ (x = u y ∨ x = v y))
      (fun t => LY t ∨ ∃ y ∈ l, q y ∧ t = s y) (fun x t => NL x t ∨ ∃ y ∈ l, q y ∧ t = s y ∧ (x = u y ∨ x = v y))
      (fun t a b => if ∃ y ∈ l, q y ∧ t = s y ∧ ((a = u y ∧ b = v y) ∨ (a = v y ∧ b = u y)) then 1 else R t a b) := by
  refine forE_ok (P := fun pre p' => BuiltP p' c al (fun x => S x ∨ ∃ y ∈ pre, q y ∧ (x = u y ∨ x = v y))
      (fun t => LY t ∨ ∃ y ∈ pre, q y ∧ t = s y) (fun x t => NL x t ∨ ∃ y ∈ pre, q y ∧ t = s y ∧ (x = u y ∨ x = v y))
      (fun t a b => if ∃ y ∈ pre, q y ∧ t = s y ∧ ((a = u y ∧ b = v y) ∨ (a = v y ∧ b = u y)) then 1 else R t a b)) l
    (h.congr (by simp) (by simp) (by simp) (by simp)) ?_
  intro pre y post m1 hl h1
  have hy : y ∈ l := by simp [hl]
  by_cases hq : q y
  · obtain ⟨item, i1, i2⟩ := hg m1 y hy hq
    obtain ⟨m2, e1, e2⟩ := h1.setItem (hne y hy hq) i1 1
    refine ⟨m2, i2.trans e1, e2.congr (fun x => ?_) (fun x => ?_) (fun x t => ?_) (fun t a b => ?_)⟩
    · simp only [List.mem_append, List.mem_singleton, or_and_right, exists_or, exists_eq_left, hq, true_and, or_assoc]
    · simp only [List.mem_append, List.mem_singleton, or_and_right, exists_or, exists_eq_left, hq, true_and, or_assoc]
    · simp only [List.mem_append, List.mem_singleton, or_and_right, exists_or, exists_eq_left, hq, true_and, or_assoc]
    · rw [ite_or]
      refine if_congr ?_ rfl rfl
      simp only [List.mem_append, List.mem_singleton, or_and_right, exists_or, exists_eq_left, hq, true_and]
  · refine ⟨m1, hg' m1 y hy hq, h1.congr (fun x => ?_) (fun x => ?_) (fun x t => ?_) (fun t a b => if_congr ?_ rfl rfl)⟩
    · simp only [List.mem_append, List.mem_singleton, or_and_right, exists_or, exists_eq_left, hq, false_and, or_false]
    · simp only [List.mem_append, List.mem_singleton, or_and_right, exists_or, exists_eq_left, hq, false_and, or_false]
    · simp only [List.mem_append, List.mem_singleton, or_and_right, exists_or, exists_eq_left, hq, false_and, or_false]
    · simp only [List.mem_append, List.mem_singleton, or_and_right, exists_or, exists_eq_left, hq, false_and, or_false]

open Classical in
theorem fullMono_ok {ix : Nat → α} (hix : Function.Injective ix) {n : Nat} (hn : 2 ≤ n) :
    ∃ m, (fullMono ix n : Except Err (MNet α W)) = .ok m ∧ Spec.LooksMono m (fun x => ∃ i < n, x = ix i)
      (fun a b => if a ≠ b ∧ (∃ i < n, a = ix i) ∧ (∃ i < n, b = ix i) then 1 else 0) := by
  unfold fullMono
  rw [forE_nest]
  set l := (List.range n).flatMap fun a => (List.range n).map (Prod.mk a) with hl
  have ml : ∀ ab, ab ∈ l ↔ ab.1 < n ∧ ab.2 < n := by
    rintro ⟨a, b⟩; simp [hl]
  obtain ⟨m, h1, h2⟩ := BuiltM.init.writes (α := α) (W := W) l (fun ab => ab.1 ≠ ab.2) (fun ab => ix ab.1) (fun ab => ix ab.2)
    (fun y _ hy h => hy (hix h))
    (g := fun m ab => if ab.1 ≠ ab.2 then (m.setItem [ix ab.1, ix ab.2] 1).toExcept else .ok m)
    (fun m y _ hy => if_pos hy) (fun m y _ hy => if_neg hy)
  refine ⟨m, h1, (fills_net.congr h2 (fun x => ?_) (fun x y => ?_)).looks⟩
  · constructor
    · rintro (h | ⟨ab, hm, -, rfl | rfl⟩)
      · cases h
      · exact ⟨_, ((ml _).1 hm).1, rfl⟩
      · exact ⟨_, ((ml _).1 hm).2, rfl⟩
    · rintro ⟨i, hi, rfl⟩
      refine .inr ⟨(i, if i = 0 then 1 else 0), (ml _).2 ⟨hi, ?_⟩, ?_, .inl rfl⟩ <;> dsimp only <;> split <;> omega
  · refine ite_iff ⟨?_, ?_⟩
    · rintro ⟨ab, hm, hne, ⟨rfl, rfl⟩ | ⟨rfl, rfl⟩⟩
      · exact ⟨fun h => hne (hix h), ⟨_, ((ml _).1 hm).1, rfl⟩, ⟨_, ((ml _).1 hm).2, rfl⟩⟩
      · exact ⟨fun h => hne (hix h).symm, ⟨_, ((ml _).1 hm).2, rfl⟩, ⟨_, ((ml _).1 hm).1, rfl⟩⟩
    · rintro ⟨hne, ⟨i, hi, rfl⟩, j, hj, rfl⟩
      exact ⟨(i, j), (ml _).2 ⟨hi, hj⟩, fun h => hne (congrArg ix h), .inl ⟨rfl, rfl⟩⟩

theorem addresses_one4 {i j s t : α} : Spec.Addresses 1 [i, j, s, t] [i, s] [j, t] := by
  simp [Spec.Addresses, Spec.link]

open Classical in
theorem fullPlex_ok [IntNames α] {ix : Nat → α} (hix : Function.Injective ix) {n : Nat} (hn : 2 ≤ n) (layers : List α)
    (c : Coupling α W) :
    ∃ p, (fullPlex ix n layers c : Except Err (MPlex α W)) = .ok p ∧
      Spec.LooksPlex p c true (fun x => layers ≠ [] ∧ ∃ i < n, x = ix i) (· ∈ layers)
        (fun x _ => layers ≠ [] ∧ ∃ i < n, x = ix i)
        (fun _ a b => if a ≠ b ∧ (∃ i < n, a = ix i) ∧ (∃ i < n, b = ix i) then 1 else 0) := by
  unfold fullPlex
  have hex : ∀ i < n, ∃ j < n, i ≠ j := fun i hi => ⟨if i = 0 then 1 else 0, by split <;> omega, by split <;> omega⟩
  have e : (fun (p : MPlex α W) l => forE (fun p a => forE (fun p b =>
      if a ≠ b then (p.setItem [ix a, ix b, l, l] 1).toExcept else .ok p) (List.range n) p) (List.range n) p) =
      fun p l => forE (fun p (ab : Nat × Nat) => if ab.1 ≠ ab.2 then (p.setItem [ix ab.1, ix ab.2, l, l] 1).toExcept
        else .ok p) ((List.range n).flatMap fun a => (List.range n).map (Prod.mk a)) p := by
    funext p l
    rw [forE_nest]
  rw [e, forE_nest (g := fun (p : MPlex α W) l (ab : Nat × Nat) =>
    if ab.1 ≠ ab.2 then (p.setItem [ix ab.1, ix ab.2, l, l] 1).toExcept else .ok p)]
  set l := layers.flatMap fun l => ((List.range n).flatMap fun a => (List.range n).map (Prod.mk a)).map (Prod.mk l) with hl
  have ml : ∀ y, y ∈ l ↔ y.1 ∈ layers ∧ y.2.1 < n ∧ y.2.2 < n := by
    rintro ⟨s, a, b⟩; simp [hl]
  obtain ⟨p, h1, h2⟩ := (BuiltP.init c true).writes l (fun y => y.2.1 ≠ y.2.2) (fun y => ix y.2.1) (fun y => ix y.2.2)
    (fun y => y.1) (fun y _ hy h => hy (hix h))
    (g := fun p y => if y.2.1 ≠ y.2.2 then (p.setItem [ix y.2.1, ix y.2.2, y.1, y.1] 1).toExcept else .ok p)
    (fun m y _ hy => ⟨_, addresses_one4, if_pos hy⟩) (fun m y _ hy => if_neg hy)
  refine ⟨p, h1, ?_⟩
  have hS : ∀ x, (False ∨ ∃ y ∈ l, y.2.1 ≠ y.2.2 ∧ (x = ix y.2.1 ∨ x = ix y.2.2)) ↔ (layers ≠ [] ∧ ∃ i < n, x = ix i) := by
    intro x
    constructor
    · rintro (h | ⟨y, hm, -, h⟩)
      · cases h
      obtain ⟨m1, m2, m3⟩ := (ml _).1 hm
      refine ⟨List.ne_nil_of_mem m1, ?_⟩
      rcases h with rfl | rfl
      · exact ⟨_, m2, rfl⟩
      · exact ⟨_, m3, rfl⟩
    · rintro ⟨h, i, hi, rfl⟩
      obtain ⟨s, hs⟩ := List.exists_mem_of_ne_nil _ h
      obtain ⟨j, hj, hij⟩ := hex i hi
      exact .inr ⟨(s, i, j), (ml _).2 ⟨hs, hi, hj⟩, hij, .inl rfl⟩
  have hLY : ∀ s, (False ∨ ∃ y ∈ l, y.2.1 ≠ y.2.2 ∧ s = y.1) ↔ s ∈ layers := by
    intro s
    constructor
    · rintro (h | ⟨y, hm, -, rfl⟩)
      · cases h
      · exact ((ml _).1 hm).1
    · intro hs
      obtain ⟨j, hj, hij⟩ := hex 0 (by omega)
      exact .inr ⟨(s, 0, j), (ml _).2 ⟨hs, by dsimp only; omega, hj⟩, hij, rfl⟩
  have h3 := (h2.congr hS hLY (fun _ _ => Iff.rfl) (fun _ _ _ => rfl)).looks
  simp only [if_true] at h3
  have hR : ∀ s ∈ layers, ∀ a b, (∃ y ∈ l, y.2.1 ≠ y.2.2 ∧ s = y.1 ∧ ((a = ix y.2.1 ∧ b = ix y.2.2) ∨
        (a = ix y.2.2 ∧ b = ix y.2.1))) ↔
      (a ≠ b ∧ (∃ i < n, a = ix i) ∧ (∃ i < n, b = ix i)) := by
    intro s hs a b
    refine ⟨?_, ?_⟩
    · rintro ⟨y, hm, hne, -, ⟨rfl, rfl⟩ | ⟨rfl, rfl⟩⟩
      · exact ⟨fun h => hne (hix h), ⟨_, ((ml _).1 hm).2.1, rfl⟩, ⟨_, ((ml _).1 hm).2.2, rfl⟩⟩
      · exact ⟨fun h => hne (hix h).symm, ⟨_, ((ml _).1 hm).2.2, rfl⟩, ⟨_, ((ml _).1 hm).2.1, rfl⟩⟩
    · rintro ⟨hne, ⟨i, hi, rfl⟩, j, hj, rfl⟩
      exact ⟨(s, i, j), (ml _).2 ⟨hs, hi, hj⟩, fun h => hne (congrArg ix h), rfl, .inl ⟨rfl, rfl⟩⟩
  refine ⟨h3.reachable, h3.nodes, h3.layers, h3.layerNodes, fun s hs i j hij => ?_, fun s hs => ?_⟩
  · exact (h3.reads s hs i j hij).trans (congrArg (fun w => Except.ok (Item.weight w)) (ite_iff (hR s hs i j)))
  · obtain ⟨k, k1, k2⟩ := h3.intra s hs
    exact ⟨k, k1, fun i j => (k2 i j).trans (congrArg (fun w => Except.ok (Item.weight w)) (ite_iff (hR s hs i j)))⟩

theorem forE_nest4 {σ β γ δ ε : Type} (g : σ → β → γ → δ → ε → Except Err σ) (l1 : List β) (l2 : List γ) (l3 : List δ)
    (l4 : δ → List ε) (s : σ) :
    forE (fun s a => forE (fun s b => forE (fun s c => forE (fun s d => g s a b c d) (l4 c) s) l3 s) l2 s) l1 s =
      forE (fun s (y : β × γ × δ × ε) => g s y.1 y.2.1 y.2.2.1 y.2.2.2)
        (l1.flatMap fun a => (l2.flatMap fun b => (l3.flatMap fun c => (l4 c).map (Prod.mk c)).map (Prod.mk b)).map
          (Prod.mk a)) s := by
  have e1 : ∀ a b, (fun s => forE (fun s c => forE (fun s d => g s a b c d) (l4 c) s) l3 s) =
      fun s => forE (fun s (y : δ × ε) => g s a b y.1 y.2) (l3.flatMap fun c => (l4 c).map (Prod.mk c)) s := by
    intro a b; funext s; rw [forE_nest]
  have e2 : ∀ a, (fun s => forE (fun s b => forE (fun s c => forE (fun s d => g s a b c d) (l4 c) s) l3 s) l2 s) =
      fun s => forE (fun s (y : γ × δ × ε) => g s a y.1 y.2.1 y.2.2)
        (l2.flatMap fun b => (l3.flatMap fun c => (l4 c).map (Prod.mk c)).map (Prod.mk b)) s := by
    intro a; funext s
    simp only [fun b s => congrFun (e1 a b) s]
    rw [forE_nest (g := fun s b (y : δ × ε) => g s a b y.1 y.2)]
  simp only [fun a s => congrFun (e2 a) s]
  rw [forE_nest (g := fun s a (y : γ × δ × ε) => g s a y.1 y.2.1 y.2.2)]

open Classical in
theorem fullMultilayer_ok {ix : Nat → α} (hix : Function.Injective ix) {n : Nat} (layers : Nat ⊕ List α)
    (h2 : 2 ≤ n ∨ ∃ s ∈ Spec.layerNames ix layers, ∃ t ∈ Spec.layerNames ix layers, s ≠ t) :
    ∃ m, (fullMultilayer ix n layers : Except Err (MNet α W)) = .ok m ∧
      Spec.Looks m 1 0 false true
        (fun k x => (k = 0 ∧ Spec.layerNames ix layers ≠ [] ∧ ∃ i < n, x = ix i) ∨ (k = 1 ∧ 1 ≤ n ∧ x ∈ Spec.layerNames ix layers))
        (fun nl => ∃ i < n, ∃ s ∈ Spec.layerNames ix layers, nl = [ix i, s])
        (fun u v => if u ≠ v ∧ (∃ i < n, ∃ s ∈ Spec.layerNames ix layers, u = [ix i, s]) ∧
          (∃ i < n, ∃ s ∈ Spec.layerNames ix layers, v = [ix i, s]) then 1 else 0) := by
  have e0 : (fullMultilayer ix n layers : Except Err (MNet α W)) =
      forE (fun m l1 => forE (fun m l2 => forE (fun m a => forE (fun m b =>
      if a ≠ b ∨ l1 ≠ l2 then (m.setItem [ix a, ix b, l1, l2] 1).toExcept else .ok m)
    (List.range n) m) (List.range n) m) (Spec.layerNames ix layers) m) (Spec.layerNames ix layers) (MNet.init 1 0 false true) := by
    cases layers <;> rfl
  generalize Spec.layerNames ix layers = ls at *
  rw [e0, forE_nest4]
  set l := ls.flatMap fun a => (ls.flatMap fun b => ((List.range n).flatMap fun c =>
    (List.range n).map (Prod.mk c)).map (Prod.mk b)).map (Prod.mk a) with hl
  have ml : ∀ y, y ∈ l ↔ y.1 ∈ ls ∧ y.2.1 ∈ ls ∧ y.2.2.1 < n ∧ y.2.2.2 < n := by
    rintro ⟨s, t, a, b⟩; simp [hl]
  obtain ⟨m, R, h3, h4, h5⟩ := (Built.init 1 (0 : W) false true).setItems l (fun y => y.2.2.1 ≠ y.2.2.2 ∨ y.1 ≠ y.2.1)
    (fun y => [ix y.2.2.1, y.1]) (fun y => [ix y.2.2.2, y.2.1]) (fun _ => 1)
    (g := fun m y => if y.2.2.1 ≠ y.2.2.2 ∨ y.1 ≠ y.2.1 then
      (m.setItem [ix y.2.2.1, ix y.2.2.2, y.1, y.2.1] 1).toExcept else .ok m)
    (fun m y _ hy => ⟨_, addresses_one4, if_pos hy⟩) (fun m y _ hy => if_neg hy)
    (fun y _ hy _ h => by
      simp only [List.cons.injEq, and_true] at h
      exact absurd h.2 (hy.resolve_left (fun hn => hn (hix h.1))))
  have hother : ∀ i < n, ∀ s ∈ ls, ∃ j < n, ∃ t ∈ ls, i ≠ j ∨ s ≠ t := by
    intro i hi s hs
    rcases h2 with h2 | ⟨s1, m1, s2, m2, hne⟩
    · exact ⟨if i = 0 then 1 else 0, by split <;> omega, s, hs, .inl (by split <;> omega)⟩
    · by_cases h : s = s1
      · exact ⟨i, hi, s2, m2, .inr (h ▸ hne)⟩
      · exact ⟨i, hi, s1, m1, .inr h⟩
  have hS : ∀ k x, (False ∨ ∃ y ∈ l, (y.2.2.1 ≠ y.2.2.2 ∨ y.1 ≠ y.2.1) ∧
      ([ix y.2.2.1, y.1][k]? = some x ∨ [ix y.2.2.2, y.2.1][k]? = some x)) ↔
      ((k = 0 ∧ ls ≠ [] ∧ ∃ i < n, x = ix i) ∨ (k = 1 ∧ 1 ≤ n ∧ x ∈ ls)) := by
    intro k x
    constructor
    · rintro (h | ⟨y, hy, -, h⟩)
      · cases h
      obtain ⟨m1, m2, m3, m4⟩ := (ml y).1 hy
      match k with
      | 0 =>
        refine .inl ⟨rfl, List.ne_nil_of_mem m1, ?_⟩
        rcases h with h | h
        · exact ⟨_, m3, by simpa using h.symm⟩
        · exact ⟨_, m4, by simpa using h.symm⟩
      | 1 =>
        refine .inr ⟨rfl, by omega, ?_⟩
        rcases h with h | h
        · have : y.1 = x := by simpa using h
          exact this ▸ m1
        · have : y.2.1 = x := by simpa using h
          exact this ▸ m2
      | k + 2 => simp at h
    · rintro (⟨rfl, h, i, hi, rfl⟩ | ⟨rfl, h, hx⟩)
      · obtain ⟨s, hs⟩ := List.exists_mem_of_ne_nil _ h
        obtain ⟨j, hj, t, ht, hne⟩ := hother i hi s hs
        exact .inr ⟨(s, t, i, j), (ml _).2 ⟨hs, ht, hi, hj⟩, hne, .inl rfl⟩
      · obtain ⟨j, hj, t, ht, hne⟩ := hother 0 h x hx
        exact .inr ⟨(x, t, 0, j), (ml _).2 ⟨hx, ht, h, hj⟩, hne, .inl rfl⟩
  refine ⟨m, h3, ?_⟩
  have h6 := (h4.congr hS (fun _ => Iff.rfl) (R' := fun u v => if u ≠ v ∧ (∃ i < n, ∃ s ∈ ls, u = [ix i, s]) ∧
          (∃ i < n, ∃ s ∈ ls, v = [ix i, s]) then 1 else 0) ?_).looks (by simp) (by simp)
  · simp only [if_true] at h6
    convert h6 using 2 with nl
    unfold Spec.AllNodeLayers
    constructor
    · rintro ⟨i, hi, s, hs, rfl⟩
      refine ⟨rfl, fun k x hk => ?_⟩
      match k with
      | 0 => exact .inl ⟨rfl, List.ne_nil_of_mem hs, i, hi, by simpa using hk.symm⟩
      | 1 =>
        have : s = x := by simpa using hk
        exact .inr ⟨rfl, by omega, this ▸ hs⟩
      | k + 2 => simp at hk
    · rintro ⟨hlen, hx⟩
      match nl, hlen with
      | [x, s], _ =>
        rcases hx 0 x rfl with ⟨-, -, i, hi, rfl⟩ | ⟨h, -⟩
        · rcases hx 1 s rfl with ⟨h, -⟩ | ⟨-, -, hs⟩
          · cases h
          · exact ⟨i, hi, s, hs, rfl⟩
        · cases h
  · intro a b
    rcases h5 a b with ⟨y, hy, hq, hab, e⟩ | ⟨hno, e⟩
    · obtain ⟨m1, m2, m3, m4⟩ := (ml y).1 hy
      rw [e, if_pos]
      have hne : [ix y.2.2.1, y.1] ≠ [ix y.2.2.2, y.2.1] := by
        intro h
        simp only [List.cons.injEq, and_true] at h
        exact hq.elim (fun hn => hn (hix h.1)) (fun hn => hn h.2)
      rcases hab with ⟨rfl, rfl⟩ | ⟨-, rfl, rfl⟩
      · exact ⟨hne, ⟨_, m3, _, m1, rfl⟩, ⟨_, m4, _, m2, rfl⟩⟩
      · exact ⟨hne.symm, ⟨_, m4, _, m2, rfl⟩, ⟨_, m3, _, m1, rfl⟩⟩
    · rw [e, if_neg]
      rintro ⟨hne, ⟨i, hi, s, hs, rfl⟩, j, hj, t, ht, rfl⟩
      refine hno (s, t, i, j) ((ml _).2 ⟨hs, ht, hi, hj⟩) ?_ (.inl ⟨rfl, rfl⟩)
      by_contra hcon
      rw [not_or, not_not, not_not] at hcon
      obtain ⟨rfl, rfl⟩ : i = j ∧ s = t := hcon
      exact hne rfl

theorem erMultilayer_ok {ix : Nat → α} (hix : Function.Injective ix) (n : Nat) (layers : Nat ⊕ List α)
    (hnd : (Spec.layerNames ix layers).Nodup) (p : ℝ) (rw_ : Bool) (r : Nat → Nat → Nat → Nat → ℝ)
    (w : Nat → Nat → Nat → Nat → W) :
    ∃ m R, erMultilayer ix n layers p rw_ r w = .ok m ∧
      Spec.Looks m 1 0 false true
        (fun k x => ∃ u v i j a b, Spec.Crosses ix n (Spec.layerNames ix layers) u v i j a b ∧ r i j a b < p ∧
          (u[k]? = some x ∨ v[k]? = some x))
        (Spec.AllNodeLayers 1 (fun k x => ∃ u v i j a b, Spec.Crosses ix n (Spec.layerNames ix layers) u v i j a b ∧
          r i j a b < p ∧ (u[k]? = some x ∨ v[k]? = some x))) R ∧
      (∀ u v i j a b, Spec.Crosses ix n (Spec.layerNames ix layers) u v i j a b →
        R u v = (if r i j a b < p then (if rw_ then w i j a b else 1) else 0) ∧ R v u = R u v) ∧
      ∀ u v, (∀ i j a b, ¬ Spec.Crosses ix n (Spec.layerNames ix layers) u v i j a b ∧
        ¬ Spec.Crosses ix n (Spec.layerNames ix layers) v u i j a b) → R u v = 0 := by
  classical
  have e0 : (erMultilayer ix n layers p rw_ r w : Except Err (MNet α W)) =
      forE (fun m (l1 : α × Nat) => forE (fun m (l2 : α × Nat) => forE (fun m a => forE (fun m b =>
      if a ≠ b ∨ l1.1 ≠ l2.1 then if r l1.2 l2.2 a b < p then (m.setItem [ix a, ix b, l1.1, l2.1]
        (if rw_ then w l1.2 l2.2 a b else 1)).toExcept else .ok m else .ok m)
    (List.range' (a + 1) (n - (a + 1))) m) (List.range n) m) (Spec.layerNames ix layers).zipIdx m)
    (Spec.layerNames ix layers).zipIdx (MNet.init 1 0 false true) := by
    cases layers <;> rfl
  generalize Spec.layerNames ix layers = ls at *
  rw [e0, forE_nest4]
  set l := ls.zipIdx.flatMap fun a => (ls.zipIdx.flatMap fun b => ((List.range n).flatMap fun c =>
    (List.range' (c + 1) (n - (c + 1))).map (Prod.mk c)).map (Prod.mk b)).map (Prod.mk a) with hl
  have ml : ∀ y, y ∈ l ↔ ls[y.1.2]? = some y.1.1 ∧ ls[y.2.1.2]? = some y.2.1.1 ∧ y.2.2.1 < y.2.2.2 ∧ y.2.2.2 < n := by
    rintro ⟨⟨s, i⟩, ⟨t, j⟩, a, b⟩
    simp only [hl, List.mem_flatMap, List.mem_map, List.mem_range, List.mem_range'_1, Prod.mk.injEq, Prod.exists,
      List.mem_zipIdx_iff_getElem?]
    constructor
    · rintro ⟨s', i', h1, t', j', a', b', ⟨t'', j'', h2, a'', b'', ⟨a3, h3, b3, h4, rfl, rfl⟩, ⟨rfl, rfl⟩, rfl, rfl⟩,
        ⟨rfl, rfl⟩, ⟨rfl, rfl⟩, rfl, rfl⟩
      exact ⟨h1, h2, by omega, by omega⟩
    · rintro ⟨h1, h2, h3, h4⟩
      exact ⟨s, i, h1, t, j, a, b, ⟨t, j, h2, a, b, ⟨a, by omega, b, by omega, rfl, rfl⟩, ⟨rfl, rfl⟩, rfl, rfl⟩,
        ⟨rfl, rfl⟩, ⟨rfl, rfl⟩, rfl, rfl⟩
  obtain ⟨m, R, h3, h4, h5⟩ := (Built.init 1 (0 : W) false true).setItems l (fun y => r y.1.2 y.2.1.2 y.2.2.1 y.2.2.2 < p)
    (fun y => [ix y.2.2.1, y.1.1]) (fun y => [ix y.2.2.2, y.2.1.1])
    (fun y => if rw_ then w y.1.2 y.2.1.2 y.2.2.1 y.2.2.2 else 1)
    (g := fun m y => if y.2.2.1 ≠ y.2.2.2 ∨ y.1.1 ≠ y.2.1.1 then if r y.1.2 y.2.1.2 y.2.2.1 y.2.2.2 < p then
      (m.setItem [ix y.2.2.1, ix y.2.2.2, y.1.1, y.2.1.1] (if rw_ then w y.1.2 y.2.1.2 y.2.2.1 y.2.2.2 else 1)).toExcept
      else .ok m else .ok m)
    (fun m y hy hq => by
      have := ((ml y).1 hy).2.2.1
      exact ⟨_, addresses_one4, by rw [if_pos (.inl (by omega)), if_pos hq]⟩)
    (fun m y hy hq => by
      have := ((ml y).1 hy).2.2.1
      rw [if_pos (.inl (by omega)), if_neg hq])
    (fun y hy _ _ h => by
      have := ((ml y).1 hy).2.2.1
      simp only [List.cons.injEq, and_true] at h
      have := hix h.1
      omega)
  have cr : ∀ y, y ∈ l → Spec.Crosses ix n ls [ix y.2.2.1, y.1.1] [ix y.2.2.2, y.2.1.1] y.1.2 y.2.1.2 y.2.2.1 y.2.2.2 := by
    intro y hy
    obtain ⟨m1, m2, m3, m4⟩ := (ml y).1 hy
    exact ⟨m3, m4, _, _, m1, m2, rfl, rfl⟩
  have rc : ∀ {u v i j a b}, Spec.Crosses ix n ls u v i j a b →
      ∃ y ∈ l, y.1.2 = i ∧ y.2.1.2 = j ∧ y.2.2.1 = a ∧ y.2.2.2 = b ∧ u = [ix y.2.2.1, y.1.1] ∧ v = [ix y.2.2.2, y.2.1.1] := by
    rintro u v i j a b ⟨h1, h2, s, t, h3, h4, rfl, rfl⟩
    exact ⟨((s, i), (t, j), a, b), (ml _).2 ⟨h3, h4, h1, h2⟩, rfl, rfl, rfl, rfl, rfl, rfl⟩
  have hS : ∀ (k : Nat) (x : α), (False ∨ ∃ y ∈ l, r y.1.2 y.2.1.2 y.2.2.1 y.2.2.2 < p ∧
      ([ix y.2.2.1, y.1.1][k]? = some x ∨ [ix y.2.2.2, y.2.1.1][k]? = some x)) ↔
      ∃ u v i j a b, Spec.Crosses ix n ls u v i j a b ∧ r i j a b < p ∧ (u[k]? = some x ∨ v[k]? = some x) := by
    intro k x
    constructor
    · rintro (h | ⟨y, hy, hq, h⟩)
      · cases h
      · exact ⟨_, _, _, _, _, _, cr y hy, hq, h⟩
    · rintro ⟨u, v, i, j, a, b, h1, h2, h3⟩
      obtain ⟨y, hy, rfl, rfl, rfl, rfl, rfl, rfl⟩ := rc h1
      exact .inr ⟨y, hy, h2, h3⟩
  have uniq : ∀ {i j : Nat} {s}, ls[i]? = some s → ls[j]? = some s → i = j := by
    intro i j s h1 h2
    obtain ⟨l1, e1⟩ := List.getElem?_eq_some_iff.1 h1
    obtain ⟨l2, e2⟩ := List.getElem?_eq_some_iff.1 h2
    exact (List.Nodup.getElem_inj_iff hnd).1 (e1.trans e2.symm)
  have inj : ∀ y ∈ l, ∀ z ∈ l, [ix y.2.2.1, y.1.1] = [ix z.2.2.1, z.1.1] → [ix y.2.2.2, y.2.1.1] = [ix z.2.2.2, z.2.1.1] →
      y = z := by
    rintro ⟨⟨s, i⟩, ⟨t, j⟩, a, b⟩ hy ⟨⟨s', i'⟩, ⟨t', j'⟩, a', b'⟩ hz h1 h2
    simp only [List.cons.injEq, and_true] at h1 h2
    obtain ⟨h1, rfl⟩ := h1
    obtain ⟨h2, rfl⟩ := h2
    obtain rfl := hix h1
    obtain rfl := hix h2
    obtain ⟨m1, m2, -⟩ := (ml _).1 hy
    obtain ⟨m1', m2', -⟩ := (ml _).1 hz
    obtain rfl := uniq m1 m1'
    obtain rfl := uniq m2 m2'
    rfl
  have ninj : ∀ y ∈ l, ∀ z ∈ l, [ix y.2.2.1, y.1.1] = [ix z.2.2.2, z.2.1.1] →
      [ix y.2.2.2, y.2.1.1] = [ix z.2.2.1, z.1.1] → False := by
    intro y hy z hz h1 h2
    simp only [List.cons.injEq, and_true] at h1 h2
    have := hix h1.1; have := hix h2.1
    have := ((ml _).1 hy).2.2.1
    have := ((ml _).1 hz).2.2.1
    omega
  have h6 := (h4.congr hS (fun _ => Iff.rfl) (fun _ _ => rfl)).looks (by simp) (by simp)
  simp only [if_true] at h6
  refine ⟨m, R, h3, h6, ?_, ?_⟩
  · intro u v i j a b hc
    obtain ⟨y, hy, rfl, rfl, rfl, rfl, rfl, rfl⟩ := rc hc
    have e1 : R [ix y.2.2.1, y.1.1] [ix y.2.2.2, y.2.1.1] = (if r y.1.2 y.2.1.2 y.2.2.1 y.2.2.2 < p then
        (if rw_ then w y.1.2 y.2.1.2 y.2.2.1 y.2.2.2 else 1) else 0) := by
      rcases h5 [ix y.2.2.1, y.1.1] [ix y.2.2.2, y.2.1.1] with ⟨z, hz, hq, hab, e⟩ | ⟨hno, e⟩
      · rcases hab with ⟨z1, z2⟩ | ⟨-, z1, z2⟩
        · obtain rfl := inj y hy z hz z1 z2
          rw [e, if_pos hq]
        · exact (ninj y hy z hz z1 z2).elim
      · rw [e, if_neg fun hq => hno y hy hq (.inl ⟨rfl, rfl⟩)]
    refine ⟨e1, ?_⟩
    rw [e1]
    rcases h5 [ix y.2.2.2, y.2.1.1] [ix y.2.2.1, y.1.1] with ⟨z, hz, hq, hab, e⟩ | ⟨hno, e⟩
    · rcases hab with ⟨z1, z2⟩ | ⟨-, z1, z2⟩
      · exact (ninj y hy z hz z2 z1).elim
      · obtain rfl := inj y hy z hz z2 z1
        rw [e, if_pos hq]
    · rw [e, if_neg fun hq => hno y hy hq (.inr ⟨rfl, rfl, rfl⟩)]
  · intro u v hno
    rcases h5 u v with ⟨z, hz, hq, hab, e⟩ | ⟨-, e⟩
    · rcases hab with ⟨rfl, rfl⟩ | ⟨-, rfl, rfl⟩
      · exact ((hno _ _ _ _).1 (cr z hz)).elim
      · exact ((hno _ _ _ _).2 (cr z hz)).elim
    · exact e

end Pymnet
