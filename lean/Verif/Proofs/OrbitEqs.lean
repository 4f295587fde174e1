import Verif.Proofs.OrbitEq2
import Verif.Props.PlexRelabel
import Verif.Model.OrbitEqs

/-! The networks that `orbit_equations` makes. -/

set_option linter.unusedSectionVars false
set_option linter.unusedSimpArgs false
set_option linter.unusedVariables false

namespace Pymnet

open Py MPlex

variable {α W β σ : Type} [DecidableEq α] [DecidableEq W] [Zero W] [LawfulIntNames α] [LinearOrder α] [DecidableEq σ] [One W]
  {canon : CGraph → β} {str : List (List α × Nat) × β → σ} {allowed : Option (List Nat)} {c : Coupling α W}
  {idx : Nat → α} {layers : List α} {nl N n : Nat} {T : Tables α W σ} {ol : List (Orbit α)}
  {match? : CGraph → CGraph → Option (Dict Nat Nat)} {ord : Finset α → List α} {ops ops' : List (POp α W)} {s : Finset α}

theorem mg_ext {g h : Spec.Multigraph α} (h1 : ∀ x, g.node x ↔ h.node x) (h2 : ∀ x, g.layer x ↔ h.layer x)
    (h3 : ∀ x i j, g.link x i j ↔ h.link x i j) : g = h := by
  cases g; cases h
  simp only [Spec.Multigraph.mk.injEq]
  exact ⟨funext fun x => propext (h1 x), funext fun x => propext (h2 x), funext fun x => funext fun i => funext fun j => propext (h3 x i j)⟩

/-- `p` is a network with the nodes, layers and links of `g` -/
def Is (layers : List α) (c : Coupling α W) (p : MPlex α W) (g : Spec.Multigraph α) : Prop :=
  ∃ ops, p = afterP [c] false 0 true ops ∧ NetOk layers c ops ∧ Spec.shown ops = g

/-- some links are added -/
def addK (g : Spec.Multigraph α) (K : α → α → α → Prop) : Spec.Multigraph α where
  node n := g.node n ∨ ∃ x i j, K x i j ∧ (n = i ∨ n = j)
  layer y := g.layer y ∨ ∃ i j, K y i j
  link x i j := g.link x i j ∨ K x i j ∨ K x j i

variable {p : MPlex α W} {g : Spec.Multigraph α}

/-- one link is set -/
theorem Is.setItem (h : Is layers c p g) {item : List α} {i j x : α} (hij : i ≠ j) (hx : x ∈ layers)
    (ha : Spec.Addresses 1 item [i, x] [j, x]) {w : W} (hw : w ≠ 0) :
    ∃ p', (p.setItem item w).toExcept = .ok p' ∧ Is layers c p' (addK g fun y a b => y = x ∧ a = i ∧ b = j) := by
  classical
  obtain ⟨ops, rfl, hok, rfl⟩ := h
  obtain ⟨q', e1, hq'⟩ := (builtX_after [c] false 0 true ops).setItem (by simp) (item := item) (s := [x]) hij ha w
  obtain ⟨ops2, rfl, h1, h2, h3, h4⟩ := hq'.shown hok.self
  have hl : ∀ y, (Spec.shown ops2).layer y ↔ (Spec.shown ops).layer y ∨ y = x := by
    intro y
    rw [h3]
    change ((Spec.shown ops).layer y ∨ _) ↔ _
    simp [eq_comm]
  refine ⟨_, e1, ops2, rfl, ⟨hok.cpl, fun y hy => ?_, h1⟩, mg_ext (fun y => ?_) (fun y => ?_) fun y a b => ?_⟩
  · rcases (hl y).1 hy with h | rfl
    · exact hok.lay y h
    · exact hx
  · rw [h2]
    change ((Spec.shown ops).node y ∨ _) ↔ _
    refine or_congr Iff.rfl ?_
    constructor
    · intro h; exact ⟨x, i, j, ⟨rfl, rfl, rfl⟩, h⟩
    · rintro ⟨_, _, _, ⟨rfl, rfl, rfl⟩, h⟩; exact h
  · rw [hl]
    refine or_congr Iff.rfl ?_
    constructor
    · rintro rfl; exact ⟨i, j, rfl, rfl, rfl⟩
    · rintro ⟨_, _, h, -⟩; exact h
  · change (a ≠ b ∧ Spec.readP 1 false true ops2 [y] a b ≠ 0) ↔ (a ≠ b ∧ Spec.readP 1 false true ops [y] a b ≠ 0) ∨ _
    rw [h4]
    by_cases hc : [y] = [x] ∧ Spec.SameLink false i j a b
    · rw [if_pos hc]
      obtain ⟨e, ⟨rfl, rfl⟩ | ⟨-, rfl, rfl⟩⟩ := hc
      · simp at e; subst e; simp [hij, hw]
      · simp at e; subst e; simp [hij.symm, hw]
    · rw [if_neg hc]
      constructor
      · exact Or.inl
      · rintro (h | ⟨rfl, rfl, rfl⟩ | ⟨rfl, rfl, rfl⟩)
        · exact h
        · exact absurd ⟨rfl, Or.inl ⟨rfl, rfl⟩⟩ hc
        · exact absurd ⟨rfl, Or.inr ⟨rfl, rfl, rfl⟩⟩ hc

theorem addK_addK (g : Spec.Multigraph α) (K L : α → α → α → Prop) :
    addK (addK g K) L = addK g fun x i j => K x i j ∨ L x i j := by
  refine mg_ext (fun n => ?_) (fun y => ?_) fun x i j => ?_
  · simp only [addK]
    constructor
    · rintro ((h | ⟨x, i, j, h, h'⟩) | ⟨x, i, j, h, h'⟩)
      · exact Or.inl h
      · exact Or.inr ⟨x, i, j, Or.inl h, h'⟩
      · exact Or.inr ⟨x, i, j, Or.inr h, h'⟩
    · rintro (h | ⟨x, i, j, h | h, h'⟩)
      · exact Or.inl (Or.inl h)
      · exact Or.inl (Or.inr ⟨x, i, j, h, h'⟩)
      · exact Or.inr ⟨x, i, j, h, h'⟩
  · simp only [addK]
    constructor
    · rintro ((h | ⟨i, j, h⟩) | ⟨i, j, h⟩)
      · exact Or.inl h
      · exact Or.inr ⟨i, j, Or.inl h⟩
      · exact Or.inr ⟨i, j, Or.inr h⟩
    · rintro (h | ⟨i, j, h | h⟩)
      · exact Or.inl (Or.inl h)
      · exact Or.inl (Or.inr ⟨i, j, h⟩)
      · exact Or.inr ⟨i, j, h⟩
  · simp only [addK]
    constructor
    · rintro ((h | h | h) | h | h)
      · exact Or.inl h
      · exact Or.inr (Or.inl (Or.inl h))
      · exact Or.inr (Or.inr (Or.inl h))
      · exact Or.inr (Or.inl (Or.inr h))
      · exact Or.inr (Or.inr (Or.inr h))
    · rintro (h | (h | h) | h | h)
      · exact Or.inl (Or.inl h)
      · exact Or.inl (Or.inr (Or.inl h))
      · exact Or.inr (Or.inl h)
      · exact Or.inl (Or.inr (Or.inr h))
      · exact Or.inr (Or.inr h)

theorem addK_congr {K L : α → α → α → Prop} (h : ∀ x i j, K x i j ↔ L x i j) : addK g K = addK g L := by
  have : K = L := funext fun x => funext fun i => funext fun j => propext (h x i j)
  rw [this]

theorem addK_false : addK g (fun _ _ _ => False) = g :=
  mg_ext (fun x => by simp [addK]) (fun x => by simp [addK]) fun x i j => by simp [addK]

/-- a loop that sets links, or leaves the network as it is -/
theorem Is.loop {δ : Type} {f : MPlex α W → δ → Except Err (MPlex α W)} {K : δ → α → α → α → Prop} (l : List δ) (h : Is layers c p g)
    (hf : ∀ t ∈ l, ∀ q g', Is layers c q g' → ∃ q', f q t = .ok q' ∧ Is layers c q' (addK g' (K t))) :
    ∃ p', forE f l p = .ok p' ∧ Is layers c p' (addK g fun x i j => ∃ t ∈ l, K t x i j) := by
  refine forE_ok (P := fun pre q => Is layers c q (addK g fun x i j => ∃ t ∈ pre, K t x i j)) l ?_ ?_
  · rw [addK_congr (L := fun _ _ _ => False) (by simp), addK_false]
    exact h
  · intro pre t post q hl hq
    obtain ⟨q', e, hq'⟩ := hf t (by simp [hl]) q _ hq
    refine ⟨q', e, ?_⟩
    rw [addK_addK] at hq'
    rwa [addK_congr (L := fun x i j => (∃ t ∈ pre, K t x i j) ∨ K t x i j)]
    intro x i j
    simp [or_and_right, exists_or]

theorem Is.node_mem (h : Is layers c p g) (x : α) : x ∈ p.slices.headD [] ↔ g.node x := by
  obtain ⟨ops, rfl, -, rfl⟩ := h
  exact (mem_slices_one c ops).1 x

theorem Is.layer_mem (h : Is layers c p g) (x : α) : x ∈ p.slices.getD 1 [] ↔ g.layer x := by
  obtain ⟨ops, rfl, -, rfl⟩ := h
  exact (mem_slices_one c ops).2 x

theorem Is.nodup (h : Is layers c p g) : (p.slices.headD []).Nodup ∧ (p.slices.getD 1 []).Nodup := by
  obtain ⟨ops, rfl, hok, rfl⟩ := h
  obtain ⟨R, hR, -⟩ := hok.shows.sound
  have hs := hR.snodup
  change ((afterP [c] false 0 true ops).view.slices.headD []).Nodup ∧ ((afterP [c] false 0 true ops).view.slices.getD 1 []).Nodup
  match h : (afterP [c] false 0 true ops).view.slices with
  | [] => simp
  | [a] => exact ⟨hs a (by simp [h]), by simp⟩
  | a :: b :: t => exact ⟨hs a (by simp [h]), hs b (by simp [h])⟩

theorem Is.link_node (h : Is layers c p g) {x i j : α} (hl : g.link x i j) : g.layer x ∧ g.node i ∧ g.node j ∧ i ≠ j ∧ g.link x j i := by
  obtain ⟨ops, rfl, hok, rfl⟩ := h
  obtain ⟨h1, h2, h3⟩ := Pymnet.link_node hl
  exact ⟨h1, h2, h3, hl.1, link_symm hl⟩

theorem Is.lay (h : Is layers c p g) {x : α} (hl : g.layer x) : x ∈ layers := by
  obtain ⟨ops, rfl, hok, rfl⟩ := h
  exact hok.lay x hl

/-- the sub-network of some nodes -/
def onG (g : Spec.Multigraph α) (P : α → Prop) : Spec.Multigraph α := ⟨fun x => g.node x ∧ P x, g.layer, fun x i j => g.link x i j ∧ P i ∧ P j⟩

theorem Is.subnet (ok : GenOk canon str allowed c idx layers) (h : Is layers c p g) {l : List α} (hn : l.Nodup) (hl : ∀ x ∈ l, g.node x) :
    ∃ p', p.subnet [some l, some (p.slices.getD 1 [])] false = .ok p' ∧ Is layers c p' (onG g (· ∈ l)) := by
  classical
  obtain ⟨ops, rfl, hok, rfl⟩ := h
  let ord : Finset α → List α := fun t => if t = l.toFinset then l else t.toList
  have hord : ∀ s, (ord s).Nodup ∧ ∀ x, x ∈ ord s ↔ x ∈ s := by
    intro s
    by_cases hs : s = l.toFinset
    · simp only [ord, if_pos hs]
      exact ⟨hn, fun x => by simp [hs]⟩
    · simp only [ord, if_neg hs]
      exact ⟨s.nodup_toList, fun x => by simp⟩
  obtain ⟨ops1, e, hok1, n1, l1, k1⟩ := nodesNet_spec ok hord hok (s := l.toFinset) (fun x hx => hl x (by simpa using hx))
  refine ⟨_, ?_, ops1, rfl, hok1, mg_ext (fun x => ?_) l1 fun x i j => ?_⟩
  · have : ord l.toFinset = l := by simp [ord]
    unfold nodesNet at e
    rw [this] at e
    exact e
  · rw [n1]
    simp only [onG, List.mem_toFinset]
    exact ⟨fun h => ⟨hl x h, h⟩, fun h => h.2⟩
  · constructor
    · intro h
      obtain ⟨-, h1, h2⟩ := Pymnet.link_node h
      rw [n1] at h1 h2
      exact ⟨(k1 x i j h1 h2).1 h, by simpa using h1, by simpa using h2⟩
    · rintro ⟨h, h1, h2⟩
      exact (k1 x i j (by simpa using h1) (by simpa using h2)).2 h

theorem Is.nodesNet (ok : GenOk canon str allowed c idx layers) (hord : ∀ s, (ord s).Nodup ∧ ∀ x, x ∈ ord s ↔ x ∈ s)
    (h : Is layers c p g) (hs : ∀ x ∈ s, g.node x) :
    ∃ p', nodesNet ord p s = .ok p' ∧ Is layers c p' (onG g (· ∈ s)) := by
  obtain ⟨p', e, hp'⟩ := h.subnet ok (hord s).1 (fun x hx => hs x (((hord s).2 x).1 hx))
  refine ⟨p', e, ?_⟩
  have : (fun x => x ∈ ord s) = fun x => x ∈ s := funext fun x => propext ((hord s).2 x)
  rwa [this] at hp'

theorem onG_all {P : α → Prop} (h : ∀ x, g.node x → P x) (hl : ∀ x i j, g.link x i j → g.node i ∧ g.node j) : onG g P = g :=
  mg_ext (fun x => ⟨fun h => h.1, fun hx => ⟨hx, h x hx⟩⟩) (fun _ => Iff.rfl)
    fun x i j => ⟨fun h => h.1, fun hx => ⟨hx, h i (hl x i j hx).1, h j (hl x i j hx).2⟩⟩

/-- the edges of a network -/
theorem Is.edges (h : Is layers c p g) : ∃ es, p.view.edges = .ok es ∧
    (∀ e ∈ es, ∃ i j x y w, e = ([i, j, x, y], w) ∧ w ≠ 0 ∧ ((x = y ∧ g.link x i j) ∨ i = j)) ∧
    ∀ x i j, g.link x i j → ∃ w, ([i, j, x, x], w) ∈ es ∨ ([j, i, x, x], w) ∈ es := by
  obtain ⟨ops, rfl, hok, rfl⟩ := h
  obtain ⟨R, hR, hL⟩ := hok.shows.sound
  obtain ⟨ps, h1, h2, h3, -, h5⟩ := hR.edges
  obtain ⟨h5, -⟩ := h5 hok.shows.undir
  have hprod : ∀ u, u ∈ product (afterP [c] false 0 true ops).view.slices ↔ Spec.HasNodeLayer 1 true ops u := by
    intro u
    refine (after_product (cs := [c]) (by simp) false 0 true ops u).trans ?_
    rw [hasNodeLayer_one]
    constructor
    · rintro ⟨i, s, rfl, hs, hi, hk⟩
      obtain ⟨x, rfl⟩ := List.length_eq_one_iff.1 hs
      exact ⟨i, x, rfl, hi, hasLayer_shown.1 hk⟩
    · rintro ⟨i, x, rfl, hi, hx⟩
      exact ⟨i, [x], rfl, rfl, hi, hasLayer_shown.2 hx⟩
  have hz : (afterP [c] false 0 true ops).view.noEdge = 0 := (after_params (cs := [c]) (by simp) false 0 true ops).2.2.1
  refine ⟨_, h1, fun e he => ?_, fun x i j hl => ?_⟩
  · obtain ⟨⟨a, b⟩, hp, rfl⟩ := List.mem_map.1 he
    obtain ⟨k1, k2, k3⟩ := h3 _ hp
    rw [hprod] at k1 k2
    have k4 := (hL a b k1 k2).2 k3
    obtain ⟨i, x, rfl, -, -⟩ := hasNodeLayer_one.1 k1
    obtain ⟨j, y, rfl, -, -⟩ := hasNodeLayer_one.1 k2
    rw [hz] at k3
    refine ⟨i, j, x, y, R [i, x] [j, y], rfl, k3, ?_⟩
    rcases linked_one.1 k4 with h | h
    · exact Or.inl h
    · exact Or.inr h.1
  · obtain ⟨l1, l2, l3⟩ := Pymnet.link_node hl
    have a1 : Spec.HasNodeLayer 1 true ops [i, x] := hasNodeLayer_one.2 ⟨i, x, rfl, l2, l1⟩
    have a2 : Spec.HasNodeLayer 1 true ops [j, x] := hasNodeLayer_one.2 ⟨j, x, rfl, l3, l1⟩
    rcases h5 _ ((hprod _).2 a1) _ ((hprod _).2 a2) ((hL _ _ a1 a2).1 (linked_one.2 (Or.inl ⟨rfl, hl⟩))) with h | h
    · exact ⟨_, Or.inl (List.mem_map.2 ⟨_, h, rfl⟩)⟩
    · exact ⟨_, Or.inr (List.mem_map.2 ⟨_, h, rfl⟩)⟩

/-- the network with new names -/
def renG (g : Spec.Multigraph α) (f0 f1 : α → α) : Spec.Multigraph α where
  node y := ∃ x, g.node x ∧ y = f0 x
  layer y := ∃ x, g.layer x ∧ y = f1 x
  link y a b := ∃ x i j, g.link x i j ∧ y = f1 x ∧ a = f0 i ∧ b = f0 j

theorem Is.relabel (h : Is layers c p g) (hnet : ∀ m, c ≠ .net m) (nodeNames layerNames : Dict α α)
    (h0 : ∀ x y, g.node x → g.node y → dget nodeNames x = dget nodeNames y → x = y)
    (h1 : ∀ x y, g.layer x → g.layer y → dget layerNames x = dget layerNames y → x = y)
    (hl : ∀ x, g.layer x → dget layerNames x ∈ layers) :
    ∃ p', p.relabel nodeNames [layerNames] = .ok p' ∧ Is layers c p' (renG g (dget nodeNames) (dget layerNames)) := by
  obtain ⟨ops, rfl, hok, rfl⟩ := h
  obtain ⟨ops', e, P⟩ := C85_relabel (cs := [c]) (dir := false) (z := 0) (al := true) (ops := ops) (by simp)
    (by intro m hm; simp at hm; exact hnet m hm.symm) hok.self nodeNames [layerNames] h0 (by
      intro a a1 a2
      obtain rfl : a = 1 := by simp at a2; omega
      exact h1)
  have hL : ∀ y, (Spec.shown ops').layer y ↔ ∃ x, (Spec.shown ops).layer x ∧ y = dget layerNames x :=
    fun y => P.layers 1 y (by omega) (by simp)
  refine ⟨_, e, ops', rfl, ⟨hok.cpl, fun y hy => ?_, P.noself⟩, mg_ext P.nodes hL fun y a b => ?_⟩
  · obtain ⟨x, hx, rfl⟩ := (hL y).1 hy
    exact hl x hx
  · constructor
    · rintro ⟨hab, hr⟩
      obtain ⟨s, i, j, g1, g2, g3, g4, rfl, rfl⟩ := P.onlyLinks [y] a b rfl hr
      have hs : s.length = 1 := by
        have := congrArg List.length g4
        simpa [Spec.renamedLayer] using this.symm
      obtain ⟨x, rfl⟩ := List.length_eq_one_iff.1 hs
      have hy : y = dget layerNames x := List.head_eq_of_cons_eq g4
      refine ⟨x, i, j, ⟨fun h => hab (by rw [h]), ?_⟩, hy, rfl, rfl⟩
      rw [← show Spec.readP 1 false true ops' (Spec.renamedLayer _ [x]) _ _ = Spec.readP 1 false true ops [x] i j from P.link [x] i j g1 g2 g3, ← g4]
      exact hr
    · rintro ⟨x, i, j, hl, rfl, rfl, rfl⟩
      obtain ⟨l1, l2, l3⟩ := Pymnet.link_node hl
      refine ⟨fun h => hl.1 (h0 i j l2 l3 h), ?_⟩
      have := P.link [x] i j (hasLayer_shown.2 l1) l2 l3
      have e2 : Spec.renamedLayer (Spec.newName nodeNames [layerNames]) [x] = [dget layerNames x] := rfl
      rw [e2] at this
      change Spec.readP 1 false true ops' _ _ _ ≠ 0
      rw [show Spec.readP 1 false true ops' [dget layerNames x] (dget nodeNames i) (dget nodeNames j) = _ from this]
      exact hl.2


theorem addK_symm {K L : α → α → α → Prop} (h : ∀ x i j, (K x i j ∨ K x j i) ↔ (L x i j ∨ L x j i)) : addK g K = addK g L := by
  refine mg_ext (fun n => or_congr Iff.rfl ?_) (fun y => or_congr Iff.rfl ?_) fun x i j => or_congr Iff.rfl (h x i j)
  · constructor
    · rintro ⟨x, i, j, hk, hn⟩
      rcases (h x i j).1 (Or.inl hk) with h' | h'
      · exact ⟨x, i, j, h', hn⟩
      · exact ⟨x, j, i, h', hn.symm⟩
    · rintro ⟨x, i, j, hk, hn⟩
      rcases (h x i j).2 (Or.inl hk) with h' | h'
      · exact ⟨x, i, j, h', hn⟩
      · exact ⟨x, j, i, h', hn.symm⟩
  · constructor
    · rintro ⟨i, j, hk⟩
      rcases (h y i j).1 (Or.inl hk) with h' | h'
      · exact ⟨i, j, h'⟩
      · exact ⟨j, i, h'⟩
    · rintro ⟨i, j, hk⟩
      rcases (h y i j).2 (Or.inl hk) with h' | h'
      · exact ⟨i, j, h'⟩
      · exact ⟨j, i, h'⟩

/-! ### names -/

omit [DecidableEq W] [Zero W] [LawfulIntNames α] [LinearOrder α] [DecidableEq σ] [One W] in
theorem get_fold (l : List (α × α)) (d : Dict α α) (hn : (l.map Prod.fst).Nodup) (k : α) :
    (∀ v, (k, v) ∈ l → Dict.get (l.foldl (fun d p => Dict.set d p.1 p.2) d) k = some v) ∧
    (k ∉ l.map Prod.fst → Dict.get (l.foldl (fun d p => Dict.set d p.1 p.2) d) k = Dict.get d k) := by
  induction l generalizing d with
  | nil => simp
  | cons a l ih =>
    rw [List.map_cons, List.nodup_cons] at hn
    obtain ⟨i1, i2⟩ := ih (Dict.set d a.1 a.2) hn.2
    refine ⟨fun v hv => ?_, fun hk => ?_⟩
    · rw [List.foldl_cons]
      rcases List.mem_cons.1 hv with h | h
      · subst h
        rw [i2 hn.1, Dict.get_set, if_pos rfl]
      · exact i1 v h
    · rw [List.map_cons, List.mem_cons, not_or] at hk
      rw [List.foldl_cons, i2 hk.2, Dict.get_set, if_neg fun h => hk.1 h.symm]

theorem combineNames_spec {int : Int → α} (hint : Function.Injective int) (hord : ∀ s, (ord s).Nodup ∧ ∀ x, x ∈ ord s ↔ x ∈ s)
    {nodes : Finset α} {node1 node2 : α} :
    dget (combineNames int ord nodes node1 node2) node2 = node1 ∧
    (∀ x ∈ nodes, x ≠ node2 → ∃ k : Nat, dget (combineNames int ord nodes node1 node2) x = int (-2 - (k : Int))) ∧
    ∀ x ∈ nodes, ∀ y ∈ nodes, x ≠ node2 → y ≠ node2 →
      dget (combineNames int ord nodes node1 node2) x = dget (combineNames int ord nodes node1 node2) y → x = y := by
  set D := ord (nodes \ {node2}) with hD
  have hmem : ∀ x, x ∈ D ↔ x ∈ nodes ∧ x ≠ node2 := fun x => by rw [hD, (hord _).2]; simp
  have e : combineNames int ord nodes node1 node2 =
      (D.zipIdx.map fun p => (p.1, int (-2 - (p.2 : Int)))).foldl (fun d p => Dict.set d p.1 p.2) (Dict.set [] node2 node1) := by
    rw [List.foldl_map]; rfl
  have hfst : (D.zipIdx.map fun p => (p.1, int (-2 - (p.2 : Int)))).map Prod.fst = D := by
    rw [List.map_map, show (Prod.fst ∘ fun p : α × Nat => (p.1, int (-2 - (p.2 : Int)))) = Prod.fst from rfl, List.zipIdx_map_fst]
  have hget : ∀ (k : Nat) x, D[k]? = some x → dget (combineNames int ord nodes node1 node2) x = int (-2 - (k : Int)) := by
    intro k x hk
    rw [e, dget, (get_fold _ _ (by rw [hfst]; exact (hord _).1) x).1 (int (-2 - (k : Int))), Option.getD_some]
    exact List.mem_map.2 ⟨(x, k), List.mem_zipIdx_iff_getElem?.2 hk, rfl⟩
  refine ⟨?_, fun x hx hne => ?_, fun x hx y hy hxn hyn h => ?_⟩
  · rw [e, dget, (get_fold _ _ (by rw [hfst]; exact (hord _).1) node2).2 (by rw [hfst, hmem]; simp), Dict.get_set, if_pos rfl, Option.getD_some]
  · obtain ⟨k, hk⟩ := List.getElem?_of_mem ((hmem x).2 ⟨hx, hne⟩)
    exact ⟨k, hget k x hk⟩
  · obtain ⟨k, hk⟩ := List.getElem?_of_mem ((hmem x).2 ⟨hx, hxn⟩)
    obtain ⟨j, hj⟩ := List.getElem?_of_mem ((hmem y).2 ⟨hy, hyn⟩)
    rw [hget k x hk, hget j y hj] at h
    have := hint h
    obtain rfl : k = j := by omega
    rw [hk] at hj
    exact Option.some.inj hj

omit [DecidableEq W] [Zero W] [LawfulIntNames α] [LinearOrder α] [DecidableEq σ] [One W] in
theorem shiftNames_get {d : Dict α α} {perm : List α} (hn : perm.Nodup) {x : α} (hx : x ∈ perm) :
    ∃ k : Nat, (perm.rotate (perm.length - 1))[k]? = some x ∧ perm[k]? = some (dget (shiftNames d perm) x) := by
  set r := perm.rotate (perm.length - 1) with hr
  have hlen : r.length = perm.length := List.length_rotate ..
  have hrn : r.Nodup := List.nodup_rotate.2 hn
  have hfst : (r.zip perm).map Prod.fst = r := List.map_fst_zip hlen.le
  obtain ⟨k, hk⟩ := List.getElem?_of_mem (List.mem_rotate.2 hx : x ∈ r)
  obtain ⟨hk1, hk2⟩ := List.getElem?_eq_some_iff.1 hk
  have hk3 : k < perm.length := lt_of_lt_of_eq hk1 hlen
  refine ⟨k, hk, ?_⟩
  have : (x, perm[k]) ∈ r.zip perm := by
    rw [List.mem_iff_getElem?]
    refine ⟨k, ?_⟩
    rw [List.getElem?_zip_eq_some]
    exact ⟨hk, List.getElem?_eq_getElem hk3⟩
  unfold shiftNames dget
  rw [(get_fold _ d (by rw [hfst]; exact hrn) x).1 _ this, Option.getD_some, List.getElem?_eq_getElem hk3]

omit [DecidableEq W] [Zero W] [LawfulIntNames α] [LinearOrder α] [DecidableEq σ] [One W] in
theorem shiftNames_spec {d : Dict α α} {perm : List α} (hn : perm.Nodup) :
    (∀ x ∈ perm, dget (shiftNames d perm) x ∈ perm) ∧
    ∀ x ∈ perm, ∀ y ∈ perm, dget (shiftNames d perm) x = dget (shiftNames d perm) y → x = y := by
  refine ⟨fun x hx => ?_, fun x hx y hy h => ?_⟩
  · obtain ⟨k, -, hk⟩ := shiftNames_get (d := d) hn hx
    exact List.mem_of_getElem? hk
  · obtain ⟨k, hk, hk'⟩ := shiftNames_get (d := d) hn hx
    obtain ⟨j, hj, hj'⟩ := shiftNames_get (d := d) hn hy
    rw [h] at hk'
    obtain ⟨a1, a2⟩ := List.getElem?_eq_some_iff.1 hk'
    obtain ⟨b1, b2⟩ := List.getElem?_eq_some_iff.1 hj'
    obtain rfl : k = j := (hn.getElem_inj_iff).1 (a2.trans b2.symm)
    rw [hk] at hj
    exact Option.some.inj hj

omit [DecidableEq α] [DecidableEq W] [Zero W] [LawfulIntNames α] [LinearOrder α] [DecidableEq σ] [One W] in
theorem permutationsOf_perm {γ : Type} (n : Nat) (l : List γ) (hn : l.length = n) : ∀ m ∈ permutationsOf n l, m.Perm l := by
  induction n generalizing l with
  | zero =>
    intro m hm
    rw [List.length_eq_zero_iff.1 hn]
    simpa [permutationsOf] using hm
  | succ n ih =>
    intro m hm
    simp only [permutationsOf, List.mem_flatMap, List.mem_range] at hm
    obtain ⟨i, hi, hm⟩ := hm
    rw [List.getElem?_eq_getElem hi] at hm
    simp only [List.mem_map] at hm
    obtain ⟨m', hm', rfl⟩ := hm
    have := ih (l.eraseIdx i) (by rw [List.length_eraseIdx_of_lt hi]; omega) m' hm'
    exact (this.cons _).trans (List.getElem_cons_eraseIdx_perm hi)

/-! ### combinations -/

theorem Is.combineNet (ok : GenOk canon str allowed c idx layers) {p1 p2 : MPlex α W} {g1 g2 : Spec.Multigraph α} (h1 : Is layers c p1 g1)
    (h2 : Is layers c p2 g2) {nodeNames layerNames : Dict α α}
    (i0 : ∀ x y, g2.node x → g2.node y → dget nodeNames x = dget nodeNames y → x = y)
    (i1 : ∀ x y, g2.layer x → g2.layer y → dget layerNames x = dget layerNames y → x = y)
    (hl : ∀ x, g2.layer x → dget layerNames x ∈ layers) :
    ∃ p', Pymnet.combineNet p1 p2 nodeNames layerNames = .ok p' ∧
      Is layers c p' (addK g1 (renG g2 (dget nodeNames) (dget layerNames)).link) := by
  obtain ⟨a, e1, ha⟩ := h1.subnet ok h1.nodup.1 (fun x hx => (h1.node_mem x).1 hx)
  rw [onG_all (fun x hx => (h1.node_mem x).2 hx) (fun x i j h => ⟨(h1.link_node h).2.1, (h1.link_node h).2.2.1⟩)] at ha
  obtain ⟨r, e2, hr⟩ := h2.relabel (good_not_net ok) nodeNames layerNames i0 i1 hl
  obtain ⟨es, e3, k1, k2⟩ := hr.edges
  unfold Pymnet.combineNet
  rw [e1]
  simp only
  rw [e2]
  simp only
  rw [e3]
  simp only
  obtain ⟨p', e4, hp'⟩ := ha.loop (f := combineEdge) (K := fun e y a b => ∃ w, e = ([a, b, y, y], w) ∧ a ≠ b) es (by
    intro e he q g' hq
    obtain ⟨i, j, x, y, w, rfl, hw, h⟩ := k1 e he
    unfold combineEdge
    simp only
    by_cases hij : i = j
    · subst hij
      rw [if_neg (by simp)]
      refine ⟨q, rfl, ?_⟩
      rw [addK_congr (L := fun _ _ _ => False), addK_false]
      · exact hq
      · intro y' a b
        refine ⟨?_, fun h => h.elim⟩
        rintro ⟨w', h, hab⟩
        injection h with h
        simp only [List.cons.injEq] at h
        exact hab (h.1.symm.trans h.2.1)
    · rw [if_pos hij]
      rcases h with ⟨rfl, h⟩ | h
      · obtain ⟨q', e5, hq'⟩ := hq.setItem (item := [i, j, x, x]) (w := w) hij (hr.lay (hr.link_node h).1) ⟨rfl, rfl, Or.inl rfl⟩ hw
        refine ⟨q', e5, ?_⟩
        rwa [addK_congr (L := fun y a b => y = x ∧ a = i ∧ b = j)]
        intro y' a b
        constructor
        · rintro ⟨w', h, -⟩
          injection h with h
          simp only [List.cons.injEq] at h
          exact ⟨h.2.2.1.symm, h.1.symm, h.2.1.symm⟩
        · rintro ⟨rfl, rfl, rfl⟩
          exact ⟨w, rfl, hij⟩
      · exact absurd h hij)
  refine ⟨p', e4, ?_⟩
  rwa [addK_symm (L := (renG g2 (dget nodeNames) (dget layerNames)).link)] at hp'
  intro x i j
  have sub : ∀ x i j, (∃ t ∈ es, ∃ w, t = ([i, j, x, x], w) ∧ i ≠ j) → (renG g2 (dget nodeNames) (dget layerNames)).link x i j := by
    rintro x i j ⟨t, ht, w, rfl, hij⟩
    obtain ⟨i', j', x', y', w', h, -, h'⟩ := k1 _ ht
    injection h with h
    simp only [List.cons.injEq] at h
    obtain ⟨rfl, rfl, rfl, rfl, -⟩ := h
    rcases h' with h' | h'
    · exact h'.2
    · exact absurd h' hij
  constructor
  · rintro (h | h)
    · exact Or.inl (sub _ _ _ h)
    · exact Or.inr (sub _ _ _ h)
  · have main : ∀ i j, (renG g2 (dget nodeNames) (dget layerNames)).link x i j →
        (∃ t ∈ es, ∃ w, t = ([i, j, x, x], w) ∧ i ≠ j) ∨ (∃ t ∈ es, ∃ w, t = ([j, i, x, x], w) ∧ j ≠ i) := by
      intro i j h
      have hij := (hr.link_node h).2.2.2.1
      obtain ⟨w, h | h⟩ := k2 x i j h
      · exact Or.inl ⟨_, h, w, rfl, hij⟩
      · exact Or.inr ⟨_, h, w, rfl, hij.symm⟩
    rintro (h | h)
    · exact main i j h
    · exact (main j i h).symm

/-! ### merging -/

/-- node `b` is merged into node `a` -/
def mergeG (g : Spec.Multigraph α) (a b : α) : Spec.Multigraph α :=
  addK (onG g (· ≠ b)) fun x i j => i = a ∧ j ≠ b ∧ g.link x b j

theorem Is.mergeNet (ok : GenOk canon str allowed c idx layers) (hord : ∀ s, (ord s).Nodup ∧ ∀ x, x ∈ ord s ↔ x ∈ s)
    (h : Is layers c p g) {a b : α} (hb : g.node b) (hab : ∀ x, ¬ g.link x b a) :
    ∃ q p', Pymnet.nodesNet ord p ((p.slices.headD []).toFinset \ {b}) = .ok q ∧ forE (mergeLayer p a b) (p.slices.getD 1 []) q = .ok p' ∧
      Is layers c p' (mergeG g a b) := by
  obtain ⟨q, e1, hq⟩ := h.nodesNet ok hord (s := (p.slices.headD []).toFinset \ {b}) (by
    intro x hx
    simp only [Finset.mem_sdiff, List.mem_toFinset] at hx
    exact (h.node_mem x).1 hx.1)
  have hq' : onG g (· ∈ (p.slices.headD []).toFinset \ {b}) = onG g (· ≠ b) := by
    refine mg_ext (fun x => ?_) (fun x => Iff.rfl) fun x i j => ?_
    · simp only [onG, Finset.mem_sdiff, List.mem_toFinset, h.node_mem, Finset.mem_singleton]
      tauto
    · simp only [onG, Finset.mem_sdiff, List.mem_toFinset, h.node_mem, Finset.mem_singleton]
      constructor
      · rintro ⟨h1, ⟨-, h2⟩, -, h3⟩; exact ⟨h1, h2, h3⟩
      · rintro ⟨h1, h2, h3⟩
        exact ⟨h1, ⟨(h.link_node h1).2.1, h2⟩, (h.link_node h1).2.2.1, h3⟩
  rw [hq'] at hq
  obtain ⟨p', e2, hp'⟩ := hq.loop (f := mergeLayer p a b) (K := fun l x i j => x = l ∧ i = a ∧ j ≠ b ∧ g.link x b j) (p.slices.getD 1 []) (by
    intro l hl q' g' hq'
    obtain ⟨nbs, e3, -, hn⟩ : ∃ nbs, p.view.iterTotal [b, l] none = .ok nbs ∧ nbs.Nodup ∧ ∀ t, t ∈ nbs ↔ ∃ j y, t = [j, y] ∧ g.node j ∧ g.layer y ∧
        ((l = y ∧ g.link l b j) ∨ (b = j ∧ cplRel c l y)) := by
      have hl' := (h.layer_mem l).1 hl
      obtain ⟨ops, rfl, hok, rfl⟩ := h
      exact neighbours_one hok hb hl'
    unfold mergeLayer
    rw [e3]
    simp only
    obtain ⟨p', e4, hp'⟩ := hq'.loop (f := fun (new : MPlex α W) nb =>
      match nb with
      | x :: y :: _ => if x ≠ b then (new.setItem [a, x, l, y] 1).toExcept else .ok new
      | _ => .error .indexError) (K := fun t x i j => t = [j, l] ∧ x = l ∧ i = a ∧ j ≠ b) nbs (by
        intro t ht q2 g2 hq2
        obtain ⟨j, y, rfl, -, -, hj⟩ := (hn t).1 ht
        simp only
        by_cases hjb : j = b
        · rw [if_neg (by simpa using hjb)]
          refine ⟨q2, rfl, ?_⟩
          rw [addK_congr (L := fun _ _ _ => False), addK_false]
          · exact hq2
          · intro x i j'
            refine ⟨?_, fun h => h.elim⟩
            rintro ⟨h1, -, -, h2⟩
            simp only [List.cons.injEq] at h1
            exact h2 (h1.1.symm.trans hjb)
        · rw [if_pos hjb]
          rcases hj with ⟨rfl, hj⟩ | ⟨hj, -⟩
          · obtain ⟨q3, e5, hq3⟩ := hq2.setItem (item := [a, j, l, l]) (w := (1 : W)) (i := a) (j := j)
              (fun e => hab l (e ▸ hj)) (h.lay (h.link_node hj).1) ⟨rfl, rfl, Or.inl rfl⟩ ok.one
            refine ⟨q3, e5, ?_⟩
            rwa [addK_congr (L := fun y a' b => y = l ∧ a' = a ∧ b = j)]
            intro x i j'
            simp only [List.cons.injEq, and_true]
            constructor
            · rintro ⟨rfl, rfl, rfl, -⟩; exact ⟨rfl, rfl, rfl⟩
            · rintro ⟨rfl, rfl, rfl⟩; exact ⟨rfl, rfl, rfl, hjb⟩
          · exact absurd hj.symm hjb)
    refine ⟨p', e4, ?_⟩
    rwa [addK_congr (L := fun x i j => x = l ∧ i = a ∧ j ≠ b ∧ g.link x b j)] at hp'
    intro x i j
    constructor
    · rintro ⟨t, ht, rfl, rfl, rfl, hj⟩
      obtain ⟨j', y', he, -, -, h'⟩ := (hn _).1 ht
      simp only [List.cons.injEq, and_true] at he
      obtain ⟨rfl, rfl⟩ := he
      rcases h' with h' | h'
      · exact ⟨rfl, rfl, hj, h'.2⟩
      · exact absurd h'.1.symm hj
    · rintro ⟨rfl, rfl, hj, hl'⟩
      obtain ⟨k1, -, k3, -⟩ := h.link_node hl'
      exact ⟨[j, x], (hn _).2 ⟨j, x, rfl, k3, k1, Or.inl ⟨rfl, hl'⟩⟩, rfl, rfl, rfl, hj⟩)
  refine ⟨q, p', e1, e2, ?_⟩
  rwa [addK_congr (L := fun x i j => i = a ∧ j ≠ b ∧ g.link x b j)] at hp'
  intro x i j
  constructor
  · rintro ⟨t, -, rfl, h⟩; exact h
  · rintro ⟨h1, h2, h3⟩
    exact ⟨x, (h.layer_mem x).2 (h.link_node h3).1, rfl, h1, h2, h3⟩

/-! ### additional links -/

theorem Is.addChoices (ok : GenOk canon str allowed c idx layers) (h : Is layers c p g) (choice : List ((α × α) × List α))
    (hc : ∀ t ∈ choice, t.1.1 ≠ t.1.2 ∧ ∀ x ∈ t.2, g.layer x) :
    ∃ p', addEdgeChoices choice p = .ok p' ∧ Is layers c p' (addK g fun x i j => ∃ t ∈ choice, t.1 = (i, j) ∧ x ∈ t.2) := by
  unfold addEdgeChoices
  refine h.loop (K := fun t x i j => t.1 = (i, j) ∧ x ∈ t.2) choice fun t ht q g' hq => ?_
  obtain ⟨h1, h2⟩ := hc t ht
  obtain ⟨q', e, hq'⟩ := hq.loop (f := fun (new : MPlex α W) x => (new.setItem [t.1.1, t.1.2, x] 1).toExcept)
    (K := fun l x i j => t.1 = (i, j) ∧ x = l) t.2 (by
      intro x hx q2 g2 hq2
      obtain ⟨q3, e5, hq3⟩ := hq2.setItem (item := [t.1.1, t.1.2, x]) (w := (1 : W)) h1 (h.lay (h2 x hx)) ⟨rfl, rfl, Or.inr ⟨_, _, _, rfl, rfl, rfl⟩⟩ ok.one
      refine ⟨q3, e5, ?_⟩
      rwa [addK_congr (L := fun y a' b => y = x ∧ a' = t.1.1 ∧ b = t.1.2)]
      intro y i j
      constructor
      · rintro ⟨h1, rfl⟩; rw [h1]; exact ⟨rfl, rfl, rfl⟩
      · rintro ⟨rfl, rfl, rfl⟩; exact ⟨rfl, rfl⟩)
  refine ⟨q', e, ?_⟩
  rwa [addK_congr (L := fun x i j => t.1 = (i, j) ∧ x ∈ t.2)] at hq'
  intro x i j
  constructor
  · rintro ⟨l, hl, h1, rfl⟩; exact ⟨h1, hl⟩
  · rintro ⟨h1, h2⟩; exact ⟨x, h2, h1, rfl⟩

end Pymnet
