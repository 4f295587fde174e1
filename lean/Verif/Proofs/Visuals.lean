import Verif.Model.Visuals
import Verif.Proofs.Build
import Verif.Spec.Visuals
import Mathlib.Algebra.Order.Field.Basic
import Mathlib.Tactic.Positivity
import Mathlib.Tactic.FieldSimp
import Mathlib.Tactic.Ring
import Mathlib.Tactic.Linarith

/-! Proofs about `normalize_coordinates` and the Fruchterman-Reingold layout. -/

namespace Pymnet

open Py

section Bounds

variable {κ K : Type} [DecidableEq κ] [Field K] [LinearOrder K]

theorem updMin_fold (l : List K) : ∀ m : K, ∃ y, l.foldl updMin (some m) = some y ∧ (y = m ∨ y ∈ l) ∧ y ≤ m ∧ ∀ x ∈ l, y ≤ x := by
  induction l with
  | nil => intro m; exact ⟨m, rfl, Or.inl rfl, le_refl _, by simp⟩
  | cons a l ih =>
    intro m
    simp only [List.foldl_cons, updMin]
    split
    · rename_i h
      obtain ⟨y, e, h1, h2, h3⟩ := ih a
      exact ⟨y, e, Or.inr (by rcases h1 with rfl | h1 <;> simp [*]), h2.trans h.le, by simpa using ⟨h2, h3⟩⟩
    · rename_i h
      obtain ⟨y, e, h1, h2, h3⟩ := ih m
      exact ⟨y, e, by rcases h1 with rfl | h1 <;> simp [*], h2, by simpa using ⟨h2.trans (not_lt.1 h), h3⟩⟩

theorem updMax_fold (l : List K) : ∀ m : K, ∃ y, l.foldl updMax (some m) = some y ∧ (y = m ∨ y ∈ l) ∧ m ≤ y ∧ ∀ x ∈ l, x ≤ y := by
  induction l with
  | nil => intro m; exact ⟨m, rfl, Or.inl rfl, le_refl _, by simp⟩
  | cons a l ih =>
    intro m
    simp only [List.foldl_cons, updMax]
    split
    · rename_i h
      obtain ⟨y, e, h1, h2, h3⟩ := ih a
      exact ⟨y, e, Or.inr (by rcases h1 with rfl | h1 <;> simp [*]), h.le.trans h2, by simpa using ⟨h2, h3⟩⟩
    · rename_i h
      obtain ⟨y, e, h1, h2, h3⟩ := ih m
      exact ⟨y, e, by rcases h1 with rfl | h1 <;> simp [*], h2, by simpa using ⟨(not_lt.1 h).trans h2, h3⟩⟩

theorem updMin_list {l : List K} (hl : l ≠ []) : ∃ y, l.foldl updMin none = some y ∧ y ∈ l ∧ ∀ x ∈ l, y ≤ x := by
  cases l with
  | nil => exact absurd rfl hl
  | cons a l =>
    obtain ⟨y, e, h1, h2, h3⟩ := updMin_fold l a
    exact ⟨y, e, by rcases h1 with rfl | h1 <;> simp [*], by simpa using ⟨h2, h3⟩⟩

theorem updMax_list {l : List K} (hl : l ≠ []) : ∃ y, l.foldl updMax none = some y ∧ y ∈ l ∧ ∀ x ∈ l, x ≤ y := by
  cases l with
  | nil => exact absurd rfl hl
  | cons a l =>
    obtain ⟨y, e, h1, h2, h3⟩ := updMax_fold l a
    exact ⟨y, e, by rcases h1 with rfl | h1 <;> simp [*], by simpa using ⟨h2, h3⟩⟩

/-- bounds of a nonempty list -/
theorem coordBounds_ok {l : List K} (hl : l ≠ []) : ∃ lo hi, coordBounds l = (some lo, some hi) ∧ lo ∈ l ∧ hi ∈ l ∧
    ∀ x ∈ l, lo ≤ x ∧ x ≤ hi := by
  obtain ⟨lo, e1, m1, b1⟩ := updMin_list hl
  obtain ⟨hi, e2, m2, b2⟩ := updMax_list hl
  exact ⟨lo, hi, by rw [coordBounds, e1, e2], m1, m2, fun x hx => ⟨b1 x hx, b2 x hx⟩⟩

theorem keys_set_mem {ν : Type} (d : Dict κ ν) {k : κ} (v : ν) (h : k ∈ Dict.keys d) : Dict.keys (Dict.set d k v) = Dict.keys d := by
  rw [Dict.keys_set, if_pos h]

/-- what the loop of `normalize_coordinates` returns if it does not divide by zero -/
theorem normLoop {coords : Dict κ (K × K)} (hn : (Dict.keys coords).Nodup) (minx miny : K) {difx dify : K} (hx : difx ≠ 0) (hy : dify ≠ 0)
    (inplace : Bool) : ∃ new, forE (normStep inplace coords minx miny difx dify) (Dict.keys coords) (if inplace then coords else []) = .ok new ∧
      Dict.keys new = Dict.keys coords ∧
      ∀ k c, Dict.get coords k = some c → Dict.get new k = some ((c.1 - minx) / difx, (c.2 - miny) / dify) := by
  obtain ⟨new, e, h1, h2, -⟩ := forE_ok (f := normStep inplace coords minx miny difx dify)
    (P := fun pre new => Dict.keys new = (if inplace then Dict.keys coords else pre) ∧
      (∀ k ∈ pre, ∀ c, Dict.get coords k = some c → Dict.get new k = some ((c.1 - minx) / difx, (c.2 - miny) / dify)) ∧
      (inplace = true → ∀ k, k ∉ pre → Dict.get new k = Dict.get coords k))
    (s := if inplace then coords else []) (Dict.keys coords)
    (by cases inplace <;> simp [Dict.keys]) (by
      intro pre b post s hl ⟨p1, p2, p3⟩
      rw [hl] at hn
      have hb : b ∉ pre := fun h => (List.nodup_append.1 hn).2.2 b h b (by simp) rfl
      have hbk : b ∈ Dict.keys coords := by rw [hl]; simp
      obtain ⟨c, hc⟩ := Option.isSome_iff_exists.1 (Dict.mem_keys.1 hbk)
      have hg : Dict.get (if inplace then s else coords) b = some c := by
        cases inplace with
        | false => exact hc
        | true => simp only [if_true]; rw [p3 rfl b hb, hc]
      refine ⟨Dict.set s b ((c.1 - minx) / difx, (c.2 - miny) / dify), by simp only [normStep, hg, if_neg hx, if_neg hy], ?_, ?_, ?_⟩
      · cases inplace with
        | true =>
          simp only [if_true] at p1 ⊢
          rw [keys_set_mem _ _ (by rw [p1]; exact hbk), p1]
        | false =>
          simp only [Bool.false_eq_true, if_false] at p1 ⊢
          rw [Dict.keys_set, if_neg (by rw [p1]; exact hb), p1]
      · intro k hk c' hc'
        rw [Dict.get_set]
        split
        · rename_i e; subst e
          rw [hc] at hc'; cases hc'; rfl
        · rename_i e
          refine p2 k ?_ c' hc'
          simp only [List.mem_append, List.mem_singleton] at hk
          exact hk.resolve_right fun h => e h.symm
      · intro hi k hk
        simp only [List.mem_append, List.mem_singleton, not_or] at hk
        rw [Dict.get_set_ne _ _ (Ne.symm hk.2)]
        exact p3 hi k hk.1)
  refine ⟨new, e, ?_, fun k c hc => h2 k (Dict.mem_keys.2 (by rw [hc]; rfl)) c hc⟩
  rw [h1]; cases inplace <;> rfl

theorem forE_cons_error {σ β : Type} {f : σ → β → Except Err σ} {l : List β} {s : σ} {e : Err} (hl : l ≠ [])
    (h : ∀ b ∈ l, f s b = .error e) : forE f l s = .error e := by
  cases l with
  | nil => exact absurd rfl hl
  | cons b t => simp only [forE, h b (by simp)]

variable [IsStrictOrderedRing K]

omit [IsStrictOrderedRing K] [Field K] [LinearOrder K] in
theorem mem_map_get {coords : Dict κ (K × K)} (hn : (Dict.keys coords).Nodup) {β : Type} (g : K × K → β) (b : β) :
    b ∈ coords.map (fun p => g p.2) ↔ ∃ k c, Dict.get coords k = some c ∧ b = g c := by
  constructor
  · intro h
    obtain ⟨p, hp, rfl⟩ := List.mem_map.1 h
    exact ⟨p.1, p.2, Dict.get_of_mem hn hp, rfl⟩
  · rintro ⟨k, c, hc, rfl⟩
    exact List.mem_map.2 ⟨(k, c), Dict.mem_of_get hc, rfl⟩

theorem normalize_ok {coords : Dict κ (K × K)} (hn : (Dict.keys coords).Nodup)
    (hx : ∃ k1 c1 k2 c2, Dict.get coords k1 = some c1 ∧ Dict.get coords k2 = some c2 ∧ c1.1 ≠ c2.1)
    (hy : ∃ k1 c1 k2 c2, Dict.get coords k1 = some c1 ∧ Dict.get coords k2 = some c2 ∧ c1.2 ≠ c2.2) (box : K × K) (inplace : Bool) :
    ∃ new, normalizeCoordinates coords box inplace = .ok new ∧ Spec.Rescales coords new ∧ Spec.FillsUnit new := by
  have hne : coords ≠ [] := by
    rintro rfl
    obtain ⟨k1, c1, k2, c2, h, -⟩ := hx
    simp at h
  obtain ⟨lox, hix, ex, mx1, mx2, bx⟩ := coordBounds_ok (l := coords.map fun p => p.2.1) (by simpa using hne)
  obtain ⟨loy, hiy, ey, my1, my2, by_⟩ := coordBounds_ok (l := coords.map fun p => p.2.2) (by simpa using hne)
  rw [mem_map_get hn Prod.fst] at mx1 mx2
  rw [mem_map_get hn Prod.snd] at my1 my2
  have bx' : ∀ k c, Dict.get coords k = some c → lox ≤ c.1 ∧ c.1 ≤ hix := fun k c h =>
    bx _ ((mem_map_get hn Prod.fst _).2 ⟨k, c, h, rfl⟩)
  have by' : ∀ k c, Dict.get coords k = some c → loy ≤ c.2 ∧ c.2 ≤ hiy := fun k c h =>
    by_ _ ((mem_map_get hn Prod.snd _).2 ⟨k, c, h, rfl⟩)
  have dx : 0 < hix - lox := by
    obtain ⟨k1, c1, k2, c2, h1, h2, h⟩ := hx
    rcases lt_or_gt_of_ne h with h | h <;> linarith [bx' k1 c1 h1, bx' k2 c2 h2]
  have dy : 0 < hiy - loy := by
    obtain ⟨k1, c1, k2, c2, h1, h2, h⟩ := hy
    rcases lt_or_gt_of_ne h with h | h <;> linarith [by' k1 c1 h1, by' k2 c2 h2]
  obtain ⟨new, e, hk, hg⟩ := normLoop hn lox loy dx.ne' dy.ne' inplace
  have hback : ∀ k c, Dict.get new k = some c → ∃ c', Dict.get coords k = some c' ∧ c = ((c'.1 - lox) / (hix - lox), (c'.2 - loy) / (hiy - loy)) := by
    intro k c h
    have hk' : k ∈ Dict.keys coords := by rw [← hk]; exact Dict.mem_keys.2 (by rw [h]; rfl)
    obtain ⟨c', hc'⟩ := Option.isSome_iff_exists.1 (Dict.mem_keys.1 hk')
    refine ⟨c', hc', ?_⟩
    have := hg k c' hc'
    rw [h] at this
    exact Option.some.inj this
  refine ⟨new, by simp only [normalizeCoordinates, ex, ey]; exact e, ⟨hk, 1 / (hix - lox), -lox / (hix - lox), 1 / (hiy - loy), -loy / (hiy - loy),
    by positivity, by positivity, fun k x y h => ?_⟩, ⟨fun k x y h => ?_, ?_, ?_, ?_, ?_⟩⟩
  · rw [hg k _ h]
    congr 2 <;> (simp only; ring)
  · obtain ⟨c', h1, h2⟩ := hback k _ h
    cases h2
    have hb1 := bx' k c' h1
    have hb2 := by' k c' h1
    refine ⟨⟨div_nonneg (by linarith) dx.le, (div_le_one dx).2 (by linarith)⟩, div_nonneg (by linarith) dy.le, (div_le_one dy).2 (by linarith)⟩
  · obtain ⟨k, c, h1, h2⟩ := mx1
    exact ⟨k, _, by rw [hg k c h1, ← h2, sub_self, zero_div]⟩
  · obtain ⟨k, c, h1, h2⟩ := mx2
    exact ⟨k, _, by rw [hg k c h1, ← h2, div_self dx.ne']⟩
  · obtain ⟨k, c, h1, h2⟩ := my1
    exact ⟨k, _, by rw [hg k c h1, ← h2, sub_self, zero_div]⟩
  · obtain ⟨k, c, h1, h2⟩ := my2
    exact ⟨k, _, by rw [hg k c h1, ← h2, div_self dy.ne']⟩

omit [IsStrictOrderedRing K] in
theorem normalize_flat {coords : Dict κ (K × K)} (hn : (Dict.keys coords).Nodup) (hne : coords ≠ [])
    (h : (∀ k1 c1 k2 c2, Dict.get coords k1 = some c1 → Dict.get coords k2 = some c2 → c1.1 = c2.1) ∨
      ∀ k1 c1 k2 c2, Dict.get coords k1 = some c1 → Dict.get coords k2 = some c2 → c1.2 = c2.2) (box : K × K) (inplace : Bool) :
    normalizeCoordinates coords box inplace = .error .zeroDivisionError := by
  obtain ⟨lox, hix, ex, mx1, mx2, bx⟩ := coordBounds_ok (l := coords.map fun p => p.2.1) (by simpa using hne)
  obtain ⟨loy, hiy, ey, my1, my2, by_⟩ := coordBounds_ok (l := coords.map fun p => p.2.2) (by simpa using hne)
  rw [mem_map_get hn Prod.fst] at mx1 mx2
  rw [mem_map_get hn Prod.snd] at my1 my2
  simp only [normalizeCoordinates, ex, ey]
  refine forE_cons_error (by simpa [Dict.keys] using hne) fun b hb => ?_
  obtain ⟨c, hc⟩ := Option.isSome_iff_exists.1 (Dict.mem_keys.1 hb)
  have hg : Dict.get (if inplace then (if inplace then coords else []) else coords) b = some c := by cases inplace <;> exact hc
  simp only [normStep, hg]
  rcases h with h | h
  · obtain ⟨k1, c1, g1, e1⟩ := mx1
    obtain ⟨k2, c2, g2, e2⟩ := mx2
    rw [if_pos (by rw [e1, e2, h _ _ _ _ g1 g2, sub_self])]
  · obtain ⟨k1, c1, g1, e1⟩ := my1
    obtain ⟨k2, c2, g2, e2⟩ := my2
    split
    · rfl
    · rw [if_pos (by rw [e1, e2, h _ _ _ _ g1 g2, sub_self])]

/-- `normalize_coordinates` returns coordinates that fill the unit square, or divides by zero -/
theorem normalize_or {coords : Dict κ (K × K)} (hn : (Dict.keys coords).Nodup) (hne : coords ≠ []) (box : K × K) (inplace : Bool) :
    normalizeCoordinates coords box inplace = .error .zeroDivisionError ∨
    ∃ new, normalizeCoordinates coords box inplace = .ok new ∧ Spec.Rescales coords new ∧ Spec.FillsUnit new := by
  by_cases hx : ∀ k1 c1 k2 c2, Dict.get coords k1 = some c1 → Dict.get coords k2 = some c2 → c1.1 = c2.1
  · exact Or.inl (normalize_flat hn hne (Or.inl hx) box inplace)
  · by_cases hy : ∀ k1 c1 k2 c2, Dict.get coords k1 = some c1 → Dict.get coords k2 = some c2 → c1.2 = c2.2
    · exact Or.inl (normalize_flat hn hne (Or.inr hy) box inplace)
    · push Not at hx hy
      exact Or.inr (normalize_ok hn hx hy box inplace)

end Bounds

section Fr

variable {α L K : Type} [DecidableEq α] [DecidableEq L] [Field K] [LinearOrder K]

omit [LinearOrder K] in
theorem addDelta_ok {delta : Dict α (K × K)} {n : α} (h : n ∈ Dict.keys delta) (dx dy : K) :
    ∃ d', addDelta delta n dx dy = .ok d' ∧ Dict.keys d' = Dict.keys delta := by
  obtain ⟨c, hc⟩ := Option.isSome_iff_exists.1 (Dict.mem_keys.1 h)
  exact ⟨Dict.set delta n (c.1 + dx, c.2 + dy), by simp only [addDelta, hc], keys_set_mem _ _ h⟩

omit [LinearOrder K] in
theorem addForce_ok {delta : Dict α (K × K)} {n1 n2 : α} (h1 : n1 ∈ Dict.keys delta) (h2 : n2 ∈ Dict.keys delta) (c : K) (diff : K × K) :
    ∃ d', addForce delta n1 n2 c diff = .ok d' ∧ Dict.keys d' = Dict.keys delta := by
  obtain ⟨d1, e1, k1⟩ := addDelta_ok h1 (c * diff.1) (c * diff.2)
  obtain ⟨d2, e2, k2⟩ := addDelta_ok (delta := d1) (by rw [k1]; exact h2) (-(c * diff.1)) (-(c * diff.2))
  exact ⟨d2, by simp only [addForce, e1, e2], k2.trans k1⟩

/-- every node of every link exists, and every node has an entry in `_nodeToLayers` -/
structure FrNet.Ok (net : FrNet α L) : Prop where
  nodup : net.nodes.Nodup
  ends : ∀ e ∈ net.edges, e.1 ∈ net.nodes ∧ e.2 ∈ net.nodes
  layers : ∀ n ∈ net.nodes, (Dict.get net.layers n).isSome = true

variable [IsStrictOrderedRing K]

omit [DecidableEq L] [IsStrictOrderedRing K] in
theorem keepsShape_of_eq {P : α → Prop} {old mid new : Dict α (K × K)} (h1 : ∀ k, P k → Dict.get mid k = Dict.get old k)
    (h2 : Spec.Rescales mid new) : Spec.KeepsShape P old new := by
  obtain ⟨-, a, b, c, d, ha, hc, h⟩ := h2
  exact ⟨a, b, c, d, ha, hc, fun k x y hk hg => h k x y (by rw [h1 k hk, hg])⟩

omit [DecidableEq L] in
theorem Spec.KeepsShape.trans {P : α → Prop} {old mid new : Dict α (K × K)} (h1 : Spec.KeepsShape P old mid) (h2 : Spec.KeepsShape P mid new) :
    Spec.KeepsShape P old new := by
  obtain ⟨a, b, c, d, ha, hc, h⟩ := h1
  obtain ⟨a', b', c', d', ha', hc', h'⟩ := h2
  refine ⟨a' * a, a' * b + b', c' * c, c' * d + d', mul_pos ha' ha, mul_pos hc' hc, fun k x y hk hg => ?_⟩
  rw [h' k _ _ hk (h k x y hk hg)]
  congr 2 <;> ring

theorem frStep_or {net : FrNet α L} (hnet : net.Ok) (hne : net.nodes ≠ []) (sqrt : K → K) (nodeDist : K) (box : K × K) (fixed : List α) (T : K)
    {nc : Dict α (K × K)} (hnc : Dict.keys nc = net.nodes) :
    frStep sqrt net nodeDist box fixed T nc = .error .zeroDivisionError ∨
    ∃ new, frStep sqrt net nodeDist box fixed T nc = .ok new ∧ Dict.keys new = net.nodes ∧ Spec.FillsUnit new ∧
      Spec.KeepsShape (· ∈ fixed) nc new := by
  have hget : ∀ n ∈ net.nodes, ∃ c, Dict.get nc n = some c := fun n hn =>
    Option.isSome_iff_exists.1 (Dict.mem_keys.1 (by rw [hnc]; exact hn))
  obtain ⟨d1, e1, k1⟩ := forE_ok (f := spring sqrt nodeDist nc) (P := fun _ d => Dict.keys d = net.nodes)
    (s := nc.map fun p => (p.1, ((0 : K), (0 : K)))) net.edges (by rw [← hnc]; simp [Dict.keys]) (by
      intro pre b post s hl hs
      have hb := hnet.ends b (by rw [hl]; simp)
      unfold spring
      split
      · exact ⟨s, rfl, hs⟩
      · obtain ⟨c1, h1⟩ := hget _ hb.1
        obtain ⟨c2, h2⟩ := hget _ hb.2
        simp only [h1, h2]
        obtain ⟨d', e, k⟩ := addForce_ok (delta := s) (n1 := b.1) (n2 := b.2) (by rw [hs]; exact hb.1) (by rw [hs]; exact hb.2)
          (-(sqrt ((c1.1 - c2.1) ^ 2 + (c1.2 - c2.2) ^ 2) / nodeDist)) (c1.1 - c2.1, c1.2 - c2.2)
        exact ⟨d', e, k.trans hs⟩)
  obtain ⟨d2, e2, k2⟩ := forE_ok (f := repulse sqrt nodeDist net.layers nc) (P := fun _ d => Dict.keys d = net.nodes)
    (s := d1) (net.nodes.flatMap fun a => net.nodes.map fun b => (a, b)) k1 (by
      intro pre b post s hl hs
      have hb : b.1 ∈ net.nodes ∧ b.2 ∈ net.nodes := by
        have : b ∈ net.nodes.flatMap fun a => net.nodes.map fun b => (a, b) := by rw [hl]; simp
        simp only [List.mem_flatMap, List.mem_map] at this
        obtain ⟨a, ha, b', hb', rfl⟩ := this
        exact ⟨ha, hb'⟩
      unfold repulse
      split
      · exact ⟨s, rfl, hs⟩
      · obtain ⟨c1, h1⟩ := hget _ hb.1
        obtain ⟨c2, h2⟩ := hget _ hb.2
        obtain ⟨l1, g1⟩ := Option.isSome_iff_exists.1 (hnet.layers _ hb.1)
        obtain ⟨l2, g2⟩ := Option.isSome_iff_exists.1 (hnet.layers _ hb.2)
        simp only [h1, h2, g1, g2]
        obtain ⟨d', e, k⟩ := addForce_ok (delta := s) (n1 := b.1) (n2 := b.2) (by rw [hs]; exact hb.1) (by rw [hs]; exact hb.2)
          (((l1.filter fun x => x ∈ l2).length : K) * nodeDist ^ 2 / (max (sqrt ((c1.1 - c2.1) ^ 2 + (c1.2 - c2.2) ^ 2)) (1 / 100)) ^ 2) (c1.1 - c2.1, c1.2 - c2.2)
        exact ⟨d', e, k.trans hs⟩)
  obtain ⟨nc', e3, k3, f3⟩ := forE_ok (f := moveNode sqrt fixed T d2) (P := fun _ d => Dict.keys d = net.nodes ∧ ∀ k ∈ fixed, Dict.get d k = Dict.get nc k)
    (s := nc) (Dict.keys d2) ⟨hnc, fun _ _ => rfl⟩ (by
      intro pre b post s hl ⟨hs, hfix⟩
      have hb : b ∈ Dict.keys d2 := by rw [hl]; simp
      obtain ⟨d, hd⟩ := Option.isSome_iff_exists.1 (Dict.mem_keys.1 hb)
      rw [k2] at hb
      simp only [moveNode, hd]
      split
      · exact ⟨s, rfl, hs, hfix⟩
      · rename_i hbf
        obtain ⟨c, hc⟩ := Option.isSome_iff_exists.1 (Dict.mem_keys.1 (by rw [hs]; exact hb : b ∈ Dict.keys s))
        simp only [hc]
        exact ⟨_, rfl, by rw [keys_set_mem _ _ (by rw [hs]; exact hb), hs], fun k hk => by
          rw [Dict.get_set_ne _ _ (fun e => hbf (by first | exact e ▸ hk | exact e.symm ▸ hk)), hfix k hk]⟩)
  have hr : frStep sqrt net nodeDist box fixed T nc = normalizeCoordinates nc' box true := by simp only [frStep, e1, e2, e3]
  rw [hr]
  rcases normalize_or (coords := nc') (by rw [k3]; exact hnet.nodup) (by rintro rfl; exact hne (by rw [← k3]; rfl)) box true with h | ⟨new, h1, h2, h3⟩
  · exact Or.inl h
  · exact Or.inr ⟨new, h1, h2.1.trans k3, h3, keepsShape_of_eq f3 h2⟩

theorem frLoop_or {net : FrNet α L} (hnet : net.Ok) (hne : net.nodes ≠ []) (sqrt : K → K) (nodeDist : K) (box : K × K) (fixed : List α) (dT : K)
    (n : Nat) : ∀ (T : K) {nc : Dict α (K × K)}, Dict.keys nc = net.nodes →
    frLoop sqrt net nodeDist box fixed dT (n + 1) T nc = .error .zeroDivisionError ∨
    ∃ new, frLoop sqrt net nodeDist box fixed dT (n + 1) T nc = .ok new ∧ Dict.keys new = net.nodes ∧ Spec.FillsUnit new ∧
      Spec.KeepsShape (· ∈ fixed) nc new := by
  induction n with
  | zero =>
    intro T nc hnc
    rcases frStep_or hnet hne sqrt nodeDist box fixed T hnc with h | ⟨new, h1, h2, h3, h4⟩
    · left; simp only [frLoop, h]
    · right; exact ⟨new, by simp only [frLoop, h1], h2, h3, h4⟩
  | succ n ih =>
    intro T nc hnc
    rcases frStep_or hnet hne sqrt nodeDist box fixed T hnc with h | ⟨new, h1, h2, h3, h4⟩
    · left; rw [frLoop, h]
    · rw [frLoop, h1]
      rcases ih (T - dT) h2 with h | ⟨new', g1, g2, g3, g4⟩
      · exact Or.inl h
      · exact Or.inr ⟨new', g1, g2, g3, h4.trans g4⟩

omit [IsStrictOrderedRing K] [LinearOrder K] [Field K] in
theorem keys_foldl_set (nodes : List α) (hn : nodes.Nodup) (f : α → K × K) :
    Dict.keys (nodes.foldl (fun nc node => Dict.set nc node (f node)) []) = nodes := by
  suffices h : ∀ (l : List α) (d : Dict α (K × K)), (∀ x ∈ l, x ∉ Dict.keys d) → l.Nodup →
      Dict.keys (l.foldl (fun nc node => Dict.set nc node (f node)) d) = Dict.keys d ++ l by
    simpa [Dict.keys] using h nodes [] (by simp [Dict.keys]) hn
  intro l
  induction l with
  | nil => intro d _ _; simp
  | cons a l ih =>
    intro d hd hl
    rw [List.nodup_cons] at hl
    have ha := hd a (by simp)
    rw [List.foldl_cons, ih _ (fun x hx => by
      rw [Dict.keys_set, if_neg ha]
      simp only [List.mem_append, List.mem_singleton, not_or]
      exact ⟨hd x (by simp [hx]), fun e => hl.1 (e ▸ hx)⟩) hl.2, Dict.keys_set, if_neg ha]
    simp

omit [IsStrictOrderedRing K] [LinearOrder K] [Field K] in
theorem get_foldl_set (f : α → K × K) {a : α} : ∀ (l : List α) (d : Dict α (K × K)), a ∈ l →
    Dict.get (l.foldl (fun nc node => Dict.set nc node (f node)) d) a = some (f a) := by
  have stays : ∀ (l : List α) (d : Dict α (K × K)), Dict.get d a = some (f a) →
      Dict.get (l.foldl (fun nc node => Dict.set nc node (f node)) d) a = some (f a) := by
    intro l
    induction l with
    | nil => intro d hd; exact hd
    | cons b l ih =>
      intro d hd
      rw [List.foldl_cons]
      refine ih _ ?_
      rw [Dict.get_set]
      split
      · rename_i e; rw [e]
      · exact hd
  intro l
  induction l with
  | nil => intro d h; simp at h
  | cons b l ih =>
    intro d h
    rw [List.foldl_cons]
    rcases List.mem_cons.1 h with rfl | h
    · exact stays l _ (by rw [Dict.get_set, if_pos rfl])
    · exact ih _ h

theorem frLayout_or {net : FrNet α L} (hnet : net.Ok) (hne : net.nodes ≠ []) (sqrt : K → K) (nodeDist : Option K)
    (hd : ∀ x, nodeDist = some x → 0 < x) (box : K × K) (nodeCoords : Dict α (K × K)) (rand : α → K × K) (fixed : List α) (n : Nat) :
    frLayout sqrt net nodeDist box nodeCoords rand fixed n = .error .zeroDivisionError ∨
    ∃ new, frLayout sqrt net nodeDist box nodeCoords rand fixed n = .ok new ∧ Dict.keys new = net.nodes ∧ Spec.FillsUnit new ∧
      Spec.KeepsShape (fun k => k ∈ fixed ∧ k ∈ net.nodes) nodeCoords new := by
  unfold frLayout
  have hdist : frDist sqrt net.nodes.length nodeDist = .error .zeroDivisionError ∨ ∃ x, frDist sqrt net.nodes.length nodeDist = .ok x := by
    cases nodeDist with
    | none =>
      by_cases h0 : sqrt (net.nodes.length : K) = 0
      · exact Or.inl (by simp only [frDist, h0, if_true])
      · exact Or.inr ⟨1 / sqrt (net.nodes.length : K), by simp only [frDist, h0, if_false]⟩
    | some x => exact Or.inr ⟨x, by simp [frDist, hd x rfl]⟩
  rcases hdist with h | ⟨x, h⟩
  · left; simp only [h]
  · simp only [h]
    cases n with
    | zero => left; simp
    | succ n =>
      simp only [Nat.add_eq_zero_iff, Nat.one_ne_zero, and_false, if_false]
      rcases frLoop_or hnet hne sqrt x box fixed _ n _ (keys_foldl_set net.nodes hnet.nodup (frStart box nodeCoords rand)) with
        h | ⟨new, g1, g2, g3, a, b, c, d, ha, hc, g4⟩
      · exact Or.inl h
      · refine Or.inr ⟨new, g1, g2, g3, a, b, c, d, ha, hc, fun k x y hk hg => g4 k x y hk.1 ?_⟩
        rw [get_foldl_set _ _ _ hk.2]
        simp only [frStart, hg]

end Fr

end Pymnet
