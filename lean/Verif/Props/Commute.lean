import Verif.Props.AggTwice
import Verif.Props.Transforms4

/-! C160–C162: thresholds, sub-networks, renamings and aggregations after each other. -/

set_option linter.unusedSectionVars false

namespace Pymnet

open Py

variable {α W : Type} [DecidableEq α] [DecidableEq W]

variable {m : MNet α W} {d : Nat} {z : W} {dir al : Bool} {S : Nat → α → Prop} {NL : List α → Prop} {R : List α → List α → W}

/-! ### C160 -/

section
variable [LE W] [LT W] [DecidableLE W] [DecidableLT W]

/-- **C160, thresholds commute.** For every node-aligned general network: it does not matter which of two thresholds, by any of the rules, is
applied first, and applying the same one twice is applying it once. -/
theorem C160_threshold_commutes (h : Spec.Looks m d z dir true S NL R) (t1 t2 : W) {r1 r2 : Method} (hr1 : r1 ≠ .invalid) (hr2 : r2 ≠ .invalid) :
    ∃ m1 m12 m2 m21 m11, m.view.threshold t1 r1 = .ok m1 ∧ m1.view.threshold t2 r2 = .ok m12 ∧ m.view.threshold t2 r2 = .ok m2 ∧
      m2.view.threshold t1 r1 = .ok m21 ∧ m12.eq m21 = .ok true ∧ m1.view.threshold t1 r1 = .ok m11 ∧ m11.eq m1 = .ok true := by
  classical
  obtain ⟨m1, e1, l1⟩ := C32_threshold_partial h t1 hr1
  obtain ⟨m2, e2, l2⟩ := C32_threshold_partial h t2 hr2
  obtain ⟨m12, e12, l12⟩ := C32_threshold_partial l1 t2 hr2
  obtain ⟨m21, e21, l21⟩ := C32_threshold_partial l2 t1 hr1
  obtain ⟨m11, e11, l11⟩ := C32_threshold_partial l1 t1 hr1
  refine ⟨m1, m12, m2, m21, m11, e1, e12, e2, e21, ?_, e11, ?_⟩
  · refine l12.eq (l21.congr (fun _ _ _ => Iff.rfl) (fun _ => Iff.rfl) fun u v _ _ => ?_) (Or.inl rfl)
    by_cases k1 : Spec.Keeps t1 (R u v) r1 <;> by_cases k2 : Spec.Keeps t2 (R u v) r2 <;> simp [k1, k2]
  · refine l11.eq (l1.congr (fun _ _ _ => Iff.rfl) (fun _ => Iff.rfl) fun u v _ _ => ?_) (Or.inl rfl)
    by_cases k1 : Spec.Keeps t1 (R u v) r1 <;> simp [k1]

/-- **C160, a threshold and a selection commute.** -/
theorem C160_threshold_subnet (h : Spec.Looks m d z dir true S NL R) (t : W) {r : Method} (hr : r ≠ .invalid)
    {sel : List (Option (List α))} (hs : sel.length = d + 1) (nolinks : Bool) :
    ∃ m1 m12 m2 m21, m.view.threshold t r = .ok m1 ∧ m1.subnet sel nolinks = .ok m12 ∧ m.subnet sel nolinks = .ok m2 ∧
      m2.view.threshold t r = .ok m21 ∧ m12.eq m21 = .ok true := by
  classical
  obtain ⟨m1, e1, l1⟩ := C32_threshold_partial h t hr
  obtain ⟨m2, e2, l2⟩ := C28_subnet_partial h hs nolinks
  obtain ⟨m12, e12, l12⟩ := C28_subnet_partial l1 hs nolinks
  obtain ⟨m21, e21, l21⟩ := C32_threshold_partial l2 t hr
  refine ⟨m1, m12, m2, m21, e1, e12, e2, e21, ?_⟩
  refine l12.eq (l21.congr (fun _ _ _ => Iff.rfl) (fun _ => Iff.rfl) fun u v _ _ => ?_) (Or.inl rfl)
  by_cases k : Spec.Keeps t (R u v) r <;> by_cases a : Spec.Selected sel u <;> by_cases b : Spec.Selected sel v <;> cases nolinks <;>
    simp [k, a, b]

/-- **C160, a threshold and a renaming commute.** -/
theorem C160_threshold_relabel (h : Spec.Looks m d z dir true S NL R) (t : W) {r : Method} (hr : r ≠ .invalid) (nodes : Dict α α)
    (layers : List (Dict α α))
    (hinj : ∀ k ≤ d, ∀ x y, S k x → S k y → Spec.newName nodes layers k x = Spec.newName nodes layers k y → x = y) :
    ∃ m1 m12 m2 m21, m.view.threshold t r = .ok m1 ∧ m1.relabel nodes layers = .ok m12 ∧ m.relabel nodes layers = .ok m2 ∧
      m2.view.threshold t r = .ok m21 ∧ m12.eq m21 = .ok true := by
  classical
  obtain ⟨m1, e1, l1⟩ := C32_threshold_partial h t hr
  obtain ⟨m2, R2, e2, l2, a2, b2⟩ := C30_relabel h nodes layers hinj
  obtain ⟨m12, R12, e12, l12, a12, b12⟩ := C30_relabel l1 nodes layers hinj
  obtain ⟨m21, e21, l21⟩ := C32_threshold_partial l2 t hr
  refine ⟨m1, m12, m2, m21, e1, e12, e2, e21, ?_⟩
  refine l12.eq (l21.congr (fun _ _ _ => Iff.rfl) (fun _ => Iff.rfl) fun u v hu hv => ?_) (Or.inl rfl)
  by_cases hx : ∃ a b, NL a ∧ NL b ∧ u = Spec.renamed (Spec.newName nodes layers) a ∧ v = Spec.renamed (Spec.newName nodes layers) b
  · obtain ⟨a, b, ha, hb, rfl, rfl⟩ := hx
    rw [a2 a b ha hb, a12 a b ha hb]
  · have q2 : R2 u v = z := by
      by_contra q; obtain ⟨a, b, q⟩ := b2 u v q; exact hx ⟨a, b, q⟩
    have q12 : R12 u v = z := by
      by_contra q; obtain ⟨a, b, q⟩ := b12 u v q; exact hx ⟨a, b, q⟩
    rw [q2, q12]; simp

end

/-- two thresholds, and a threshold with a selection and with an exchange of names -/
example : ∃ m1 m12 m2 m21 m11, (after 1 0 false true transOps).view.threshold 4 .ge = .ok m1 ∧ m1.view.threshold 6 .lt = .ok m12 ∧
    (after 1 0 false true transOps).view.threshold 6 .lt = .ok m2 ∧ m2.view.threshold 4 .ge = .ok m21 ∧ m12.eq m21 = .ok true ∧
    m1.view.threshold 4 .ge = .ok m11 ∧ m11.eq m1 = .ok true ∧ m12.view.readItem [1, 2, 10] = .ok (.weight 5) ∧
    m12.view.readItem [2, 3, 12] = .ok (.weight 0) := by
  obtain ⟨m1, m12, m2, m21, m11, e1, e12, e2, e21, e, e11, e'⟩ := C160_threshold_commutes (network_looks 1 0 false true transOps) 4 6
    (r1 := .ge) (r2 := .lt) (by simp) (by simp)
  refine ⟨m1, m12, m2, m21, m11, e1, e12, e2, e21, e, e11, e', ?_⟩
  cases e1
  cases e12
  decide +kernel

example : ∃ m1 m12 m2 m21, (after 1 0 false true transOps).view.threshold 4 .ge = .ok m1 ∧ m1.subnet [some [1, 2], none] false = .ok m12 ∧
    (after 1 0 false true transOps).subnet [some [1, 2], none] false = .ok m2 ∧ m2.view.threshold 4 .ge = .ok m21 ∧
    m12.eq m21 = .ok true :=
  C160_threshold_subnet (network_looks 1 0 false true transOps) 4 (r := .ge) (by simp) rfl false

example : ∃ m1 m12 m2 m21, (after 1 0 false true transOps).view.threshold 4 .ge = .ok m1 ∧ m1.relabel [(1, 2), (2, 1)] [] = .ok m12 ∧
    (after 1 0 false true transOps).relabel [(1, 2), (2, 1)] [] = .ok m2 ∧ m2.view.threshold 4 .ge = .ok m21 ∧ m12.eq m21 = .ok true :=
  C160_threshold_relabel (network_looks 1 0 false true transOps) 4 (r := .ge) (by simp) _ _ (fun k _ x y _ _ h => by
      rcases k with _ | _ | k <;> simp [Spec.newName, Dict.get] at h <;> try exact h
      all_goals split_ifs at h <;> simp only [Option.getD_some, Option.getD_none] at h <;> omega)

/-! ### C161, C162 -/

/-! ### C161, C162 -/

/-- Internal: with all aspects aggregated only the node is left. -/
theorem reduce_all {asp : List Nat} (hn : asp.Nodup) (hr : ∀ a ∈ asp, 1 ≤ a ∧ a ≤ d) (hall : asp.length = d) {nl : List α}
    (hl : nl.length = d + 1) (x : α) : Spec.reduce asp nl = [x] ↔ nl[0]? = some x := by
  have h0 : 0 ∉ asp := fun q => by have := hr 0 q; omega
  have h1 := length_reduce (α := α) hn (fun a ha => (hr a ha).2) hl
  rw [← reduce_head h0 nl x]
  generalize Spec.reduce asp nl = r at *
  have : r.length = 1 := by omega
  obtain ⟨y, rfl⟩ := List.length_eq_one_iff.1 this
  simp

/-- Internal: the nodes of an aggregated network. -/
theorem aggNames_zero [AddCommMonoid W] (h : Spec.Looks m d (0 : W) dir al S NL R) {asp : List Nat} (h0 : 0 ∉ asp) (x : α) :
    Spec.AggNames asp false al S NL R 0 x ↔ S 0 x := by
  constructor
  · rintro (⟨-, hx⟩ | ⟨a, b, ha, hb, -, -, hx | hx⟩ | ⟨-, a, ha, hx⟩)
    · exact hx
    · exact ((h.names ha).2 0 x ((reduce_head h0 a x).1 hx)).2
    · exact ((h.names hb).2 0 x ((reduce_head h0 b x).1 hx)).2
    · exact ((h.names ha).2 0 x ((reduce_head h0 a x).1 hx)).2
  · intro hx; exact Or.inl ⟨rfl, hx⟩

/-- Internal: the network aggregated over all aspects. -/
theorem aggregate_all [AddCommMonoid W] (h : Spec.Looks m d (0 : W) dir al S NL R) {asp : List Nat} (hn : asp.Nodup)
    (hr : ∀ a ∈ asp, 1 ≤ a ∧ a ≤ d) (hall : asp.length = d) :
    ∃ m', m.view.aggregate asp false = .ok m' ∧ Spec.Looks m' 0 0 dir true (fun k x => k = 0 ∧ S 0 x)
      (fun nl => ∃ x, nl = [x] ∧ S 0 x)
      (fun u w => if u = w then 0 else ∑ a ∈ m.nodeLayers.toFinset with a.take 1 = u, ∑ b ∈ m.nodeLayers.toFinset with b.take 1 = w, R a b) := by
  obtain ⟨m', e, l⟩ := C26_aggregate h hn hr
  have h0 : 0 ∉ asp := fun q => by have := hr 0 q; omega
  have hd : d - asp.length = 0 := by omega
  rw [hd] at l
  refine ⟨m', e, l.congr (fun k hk x => ?_) (fun nl => ?_) fun u w hu hw => ?_⟩
  · obtain rfl : k = 0 := by omega
    rw [aggNames_zero h h0]; simp
  · unfold Spec.AggNodeLayers
    rw [if_pos (Or.inl rfl)]
    unfold Spec.AllNodeLayers
    constructor
    · rintro ⟨hl, hx⟩
      obtain ⟨x, rfl⟩ := List.length_eq_one_iff.1 hl
      exact ⟨x, rfl, (aggNames_zero h h0 x).1 (hx 0 x rfl)⟩
    · rintro ⟨x, rfl, hx⟩
      refine ⟨rfl, fun i y hy => ?_⟩
      rcases i with _ | i
      · cases hy; exact (aggNames_zero h h0 x).2 hx
      · simp at hy
  · obtain ⟨x, rfl⟩ := List.length_eq_one_iff.1 hu
    obtain ⟨y, rfl⟩ := List.length_eq_one_iff.1 hw
    have key : ∀ x, (m.nodeLayers.toFinset.filter fun a => Spec.reduce asp a = [x]) = m.nodeLayers.toFinset.filter fun a => a.take 1 = [x] := by
      intro x
      refine Finset.filter_congr fun a ha => ?_
      have hl := h.nl_length ((h.nodeLayers.2 a).1 (List.mem_toFinset.1 ha))
      rw [reduce_all hn hr hall hl]
      cases a with
      | nil => simp at hl
      | cons n l => simp
    by_cases q : [x] = [y]
    · rw [if_pos q, if_pos q]
    · rw [if_neg q, if_neg q]
      unfold Spec.collapsed
      rw [key x, key y]

/-- **C161.** For every general network with missing value 0 that is node-aligned, or whose nodes are all on some layer: selecting nodes and
aggregating over all aspects is, in both orders, the same up to `==`. Missing: networks with a node on no layer, of which it is false
(`C161_false`). -/
theorem C161_subnet_aggregate_partial [AddCommMonoid W] (h : Spec.Looks m d (0 : W) dir al S NL R) {asp : List Nat} (hn : asp.Nodup)
    (hr : ∀ a ∈ asp, 1 ≤ a ∧ a ≤ d) (hall : asp.length = d) (hlay : al = true ∨ ∀ x, S 0 x → ∃ l, NL (x :: l)) (nodes : Option (List α)) :
    ∃ m1 m12 m2 m21, m.subnet (nodes :: List.replicate d none) false = .ok m1 ∧ m1.view.aggregate asp false = .ok m12 ∧
      m.view.aggregate asp false = .ok m2 ∧ m2.subnet [nodes] false = .ok m21 ∧ m12.eq m21 = .ok true ∧ m21.eq m12 = .ok true := by
  classical
  obtain ⟨m1, e1, l1⟩ := C28_subnet_partial h (sel := nodes :: List.replicate d none) (by simp) false
  obtain ⟨m2, e2, l2⟩ := aggregate_all h hn hr hall
  obtain ⟨m12, e12, l12⟩ := aggregate_all l1 hn hr hall
  obtain ⟨m21, e21, l21⟩ := C28_subnet_partial l2 (sel := [nodes]) rfl false
  have hsel : ∀ (a : List α) (n : Nat) x, a[0]? = some x → (Spec.Selected (nodes :: List.replicate n none) a ↔ ∀ l, nodes = some l → x ∈ l) := by
    intro a n x hx
    constructor
    · intro hs l hl; exact hs 0 x l hx (by simp [hl])
    · intro hs i y l hy hl
      rcases i with _ | i
      · rw [hx] at hy; cases hy
        exact hs l (by simpa using hl)
      · simp [List.getElem?_replicate] at hl
  have hhead : ∀ a, NL a → ∃ x, a[0]? = some x ∧ S 0 x := fun a ha => by
    have hl := h.nl_length ha
    cases a with
    | nil => simp at hl
    | cons n l => exact ⟨n, rfl, ((h.names ha).2 0 n rfl).2⟩
  have hnode : ∀ x, (if al = false ∧ 0 = 0 then ∃ nl, NL nl ∧ Spec.Selected (nodes :: List.replicate d none) nl ∧ nl[0]? = some x
          else S 0 x ∧ ∀ l, (nodes :: List.replicate d none)[0]? = some (some l) → x ∈ l) ↔ S 0 x ∧ ∀ l, nodes = some l → x ∈ l := by
    intro x
    split_ifs with hc
    · constructor
      · rintro ⟨nl, g1, g2, g3⟩
        obtain ⟨y, g4, g5⟩ := hhead nl g1
        rw [g3] at g4; cases g4
        exact ⟨g5, (hsel nl d x g3).1 g2⟩
      · rintro ⟨g1, g2⟩
        rcases hlay with q | q
        · rw [q] at hc; exact absurd hc.1 (by simp)
        · obtain ⟨l, hl⟩ := q x g1
          exact ⟨_, hl, (hsel _ d x rfl).2 g2, rfl⟩
    · simp
  have l12' := l12.congr (S' := fun k x => k = 0 ∧ S 0 x ∧ ∀ l, nodes = some l → x ∈ l)
      (NL' := fun nl => ∃ x, nl = [x] ∧ S 0 x ∧ ∀ l, nodes = some l → x ∈ l)
      (R' := fun u w => if Spec.Selected [nodes] u ∧ Spec.Selected [nodes] w then (if u = w then 0 else
        ∑ a ∈ m.nodeLayers.toFinset with a.take 1 = u, ∑ b ∈ m.nodeLayers.toFinset with b.take 1 = w, R a b) else 0)
    (fun k hk x => by rw [hnode x]) (fun nl => exists_congr fun x => by rw [hnode x]) (fun u w hu hw => by
      obtain ⟨x, rfl⟩ := List.length_eq_one_iff.1 hu
      obtain ⟨y, rfl⟩ := List.length_eq_one_iff.1 hw
      have s0 : ∀ x : α, Spec.Selected [nodes] [x] ↔ ∀ l, nodes = some l → x ∈ l := fun x => by
        have := hsel [x] 0 x rfl
        simpa using this
      rw [s0 x, s0 y]
      have tk : ∀ {a : List α} {x}, a.take 1 = [x] → a[0]? = some x := by
        intro a x ha
        cases a with
        | nil => simp at ha
        | cons n l => simp at ha; simp [ha]
      have mem1 : ∀ a, a ∈ m1.nodeLayers.toFinset ↔ a ∈ m.nodeLayers.toFinset ∧ Spec.Selected (nodes :: List.replicate d none) a := fun a => by
        rw [List.mem_toFinset, List.mem_toFinset, l1.nodeLayers.2 a, h.nodeLayers.2 a]
      by_cases hxy : [x] = [y]
      · rw [if_pos hxy, if_pos hxy]; simp
      rw [if_neg hxy, if_neg hxy]
      by_cases hx : ∀ l, nodes = some l → x ∈ l
      · by_cases hy : ∀ l, nodes = some l → y ∈ l
        · rw [if_pos ⟨hx, hy⟩]
          have fil : ∀ x, (∀ l, nodes = some l → x ∈ l) → m1.nodeLayers.toFinset.filter (fun a => a.take 1 = [x]) =
              m.nodeLayers.toFinset.filter (fun a => a.take 1 = [x]) := by
            intro x hx
            ext a
            rw [Finset.mem_filter, Finset.mem_filter, mem1]
            constructor
            · rintro ⟨⟨g1, -⟩, g2⟩; exact ⟨g1, g2⟩
            · rintro ⟨g1, g2⟩; exact ⟨⟨g1, (hsel a d x (tk g2)).2 hx⟩, g2⟩
          rw [fil x hx, fil y hy]
          refine Finset.sum_congr rfl fun a ha => Finset.sum_congr rfl fun b hb => ?_
          rw [if_pos ⟨rfl, (hsel a d x (tk (Finset.mem_filter.1 ha).2)).2 hx, (hsel b d y (tk (Finset.mem_filter.1 hb).2)).2 hy⟩]
        · rw [if_neg (fun q => hy q.2)]
          refine Finset.sum_eq_zero fun a ha => Finset.sum_eq_zero fun b hb => ?_
          exact absurd ((hsel b d y (tk (Finset.mem_filter.1 hb).2)).1 ((mem1 b).1 (Finset.mem_filter.1 hb).1).2) hy
      · rw [if_neg (fun q => hx q.1)]
        refine Finset.sum_eq_zero fun a ha => ?_
        exact absurd ((hsel a d x (tk (Finset.mem_filter.1 ha).2)).1 ((mem1 a).1 (Finset.mem_filter.1 ha).1).2) hx)
  have l21' := l21.congr (S' := fun k x => k = 0 ∧ S 0 x ∧ ∀ l, nodes = some l → x ∈ l)
      (NL' := fun nl => ∃ x, nl = [x] ∧ S 0 x ∧ ∀ l, nodes = some l → x ∈ l)
      (R' := fun u w => if Spec.Selected [nodes] u ∧ Spec.Selected [nodes] w then (if u = w then 0 else
        ∑ a ∈ m.nodeLayers.toFinset with a.take 1 = u, ∑ b ∈ m.nodeLayers.toFinset with b.take 1 = w, R a b) else 0)
    (fun k hk x => by
      obtain rfl : k = 0 := by omega
      simp) (fun nl => by
      constructor
      · rintro ⟨⟨x, rfl, hx⟩, hs⟩
        exact ⟨x, rfl, hx, (hsel [x] 0 x rfl).1 hs⟩
      · rintro ⟨x, rfl, hx, hs⟩
        exact ⟨⟨x, rfl, hx⟩, (hsel [x] 0 x rfl).2 hs⟩) (fun u w _ _ => by simp)
  exact ⟨m1, m12, m2, m21, e1, e12, e2, e21, l12'.eq l21' (Or.inl rfl), l21'.eq l12' (Or.inl rfl)⟩

/-- **C162.** For every general network with missing value 0: renaming (with different names for different names) and aggregating over
all aspects is, in both orders, the same up to `==`. -/
theorem C162_relabel_aggregate [AddCommMonoid W] (h : Spec.Looks m d (0 : W) dir al S NL R) {asp : List Nat} (hn : asp.Nodup)
    (hr : ∀ a ∈ asp, 1 ≤ a ∧ a ≤ d) (hall : asp.length = d) (nodes : Dict α α) (layers : List (Dict α α))
    (hinj : ∀ k ≤ d, ∀ x y, S k x → S k y → Spec.newName nodes layers k x = Spec.newName nodes layers k y → x = y) :
    ∃ m1 m12 m2 m21, m.relabel nodes layers = .ok m1 ∧ m1.view.aggregate asp false = .ok m12 ∧
      m.view.aggregate asp false = .ok m2 ∧ m2.relabel nodes [] = .ok m21 ∧ m12.eq m21 = .ok true ∧ m21.eq m12 = .ok true := by
  obtain ⟨m1, R1, e1, l1, a1, b1⟩ := C30_relabel h nodes layers hinj
  obtain ⟨m2, e2, l2⟩ := aggregate_all h hn hr hall
  obtain ⟨m12, e12, l12⟩ := aggregate_all l1 hn hr hall
  have h0 : ∀ x, Spec.newName nodes ([] : List (Dict α α)) 0 x = Spec.newName nodes layers 0 x := fun x => rfl
  obtain ⟨m21, R21, e21, l21, a21, b21⟩ := C30_relabel l2 nodes [] (by
    rintro k hk x y ⟨rfl, hx⟩ ⟨-, hy⟩ he
    exact hinj 0 (by omega) x y hx hy he)
  set f := Spec.newName nodes layers with hf
  have r1 : ∀ x, Spec.renamed (Spec.newName nodes ([] : List (Dict α α))) [x] = [f 0 x] := fun x => rfl
  have l21' := l21.congr (S' := fun k x => k = 0 ∧ ∃ y, S 0 y ∧ x = f 0 y) (NL' := fun nl => ∃ x, nl = [x] ∧ ∃ y, S 0 y ∧ x = f 0 y)
      (R' := fun u w => if u = w then 0 else
        ∑ a ∈ m1.nodeLayers.toFinset with a.take 1 = u, ∑ b ∈ m1.nodeLayers.toFinset with b.take 1 = w, R1 a b)
    (fun k hk x => by
      obtain rfl : k = 0 := by omega
      simp [h0])
    (fun nl => by
      constructor
      · rintro ⟨_, ⟨y, rfl, hy⟩, rfl⟩; exact ⟨f 0 y, r1 y, y, hy, rfl⟩
      · rintro ⟨_, rfl, y, hy, rfl⟩; exact ⟨[y], ⟨y, rfl, hy⟩, (r1 y).symm⟩)
    (fun u w hu hw => by
      obtain ⟨x', rfl⟩ := List.length_eq_one_iff.1 hu
      obtain ⟨y', rfl⟩ := List.length_eq_one_iff.1 hw
      -- the node-layers of the renamed network
      have injNL : ∀ a b, NL a → NL b → Spec.renamed f a = Spec.renamed f b → a = b := by
        intro a b ha hb he
        have hl : a.length = b.length := by rw [h.nl_length ha, h.nl_length hb]
        apply List.ext_getElem? 
        intro i
        have hi : (Spec.renamed f a)[i]? = (Spec.renamed f b)[i]? := by rw [he]
        unfold Spec.renamed at hi
        rw [List.getElem?_mapIdx, List.getElem?_mapIdx] at hi
        rcases ea : a[i]? with _ | x
        · rw [List.getElem?_eq_none_iff] at ea
          rw [List.getElem?_eq_none (by omega)]
        · rcases eb : b[i]? with _ | y
          · rw [List.getElem?_eq_none_iff] at eb
            have := (List.getElem?_eq_some_iff.1 ea).1
            omega
          · rw [ea, eb] at hi
            simp only [Option.map_some, Option.some.injEq] at hi
            obtain ⟨k1, k2⟩ := (h.names ha).2 i x ea
            rw [hinj i k1 x y k2 ((h.names hb).2 i y eb).2 hi]
      have im : m1.nodeLayers.toFinset = m.nodeLayers.toFinset.image (Spec.renamed f) := by
        ext a
        rw [List.mem_toFinset, l1.nodeLayers.2 a, Finset.mem_image]
        constructor
        · rintro ⟨b, hb, rfl⟩; exact ⟨b, List.mem_toFinset.2 ((h.nodeLayers.2 b).2 hb), rfl⟩
        · rintro ⟨b, hb, rfl⟩; exact ⟨b, (h.nodeLayers.2 b).1 (List.mem_toFinset.1 hb), rfl⟩
      have mem : ∀ a, a ∈ m.nodeLayers.toFinset ↔ NL a := fun a => by rw [List.mem_toFinset]; exact h.nodeLayers.2 a
      have tk : ∀ a x, NL a → S 0 x → ((Spec.renamed f a).take 1 = [f 0 x] ↔ a.take 1 = [x]) := by
        intro a x ha hx
        have hl := h.nl_length ha
        cases a with
        | nil => simp at hl
        | cons n l =>
          have hn := ((h.names ha).2 0 n rfl).2
          simp only [Spec.renamed, List.mapIdx_cons, List.take_succ_cons, List.take_zero, List.cons.injEq, and_true]
          exact ⟨fun e => hinj 0 (by omega) n x hn hx e, fun e => by rw [e]⟩
      have fil : ∀ x, S 0 x → ∀ F : List α → W, ∑ a ∈ m1.nodeLayers.toFinset with a.take 1 = [f 0 x], F a =
          ∑ a ∈ m.nodeLayers.toFinset with a.take 1 = [x], F (Spec.renamed f a) := by
        intro x hx F
        rw [im, Finset.filter_image, Finset.sum_image]
        · refine Finset.sum_congr (Finset.filter_congr fun a ha => tk a x ((mem a).1 ha) hx) fun _ _ => rfl
        · intro a ha b hb he
          exact injNL a b ((mem a).1 (Finset.mem_filter.1 ha).1) ((mem b).1 (Finset.mem_filter.1 hb).1) he
      have emp : ∀ x', (¬ ∃ x, S 0 x ∧ x' = f 0 x) → (m1.nodeLayers.toFinset.filter fun a => a.take 1 = [x']) = ∅ := by
        intro x' hx
        rw [im, Finset.filter_eq_empty_iff]
        intro a ha e
        obtain ⟨b, hb, rfl⟩ := Finset.mem_image.1 ha
        have hl := h.nl_length ((mem b).1 hb)
        cases b with
        | nil => simp at hl
        | cons n l =>
          simp only [Spec.renamed, List.mapIdx_cons, List.take_succ_cons, List.take_zero, List.cons.injEq, and_true] at e
          exact hx ⟨n, ((h.names ((mem _).1 hb)).2 0 n rfl).2, e.symm⟩
      have hd1 : ∀ (a : List α) x', (∃ x, a = [x] ∧ S 0 x) → [x'] = Spec.renamed (Spec.newName nodes ([] : List (Dict α α))) a →
          ∃ x, S 0 x ∧ x' = f 0 x := by
        rintro _ x' ⟨x, rfl, hx⟩ he
        rw [r1] at he
        exact ⟨x, hx, (List.cons.inj he).1⟩
      have out : ∀ u w, (∀ a b, (∃ x, a = [x] ∧ S 0 x) → (∃ x, b = [x] ∧ S 0 x) →
          u = Spec.renamed (Spec.newName nodes ([] : List (Dict α α))) a →
          w = Spec.renamed (Spec.newName nodes ([] : List (Dict α α))) b → False) → R21 u w = 0 := by
        intro u w q
        by_contra hne
        obtain ⟨a, b, g1, g2, g3, g4⟩ := b21 u w hne
        exact q a b g1 g2 g3 g4
      by_cases hx : ∃ x, S 0 x ∧ x' = f 0 x
      · by_cases hy : ∃ y, S 0 y ∧ y' = f 0 y
        · obtain ⟨x, hx, rfl⟩ := hx
          obtain ⟨y, hy, rfl⟩ := hy
          have q := a21 [x] [y] ⟨x, rfl, hx⟩ ⟨y, rfl, hy⟩
          rw [r1, r1] at q
          rw [q]
          by_cases hxy : x = y
          · rw [if_pos (by rw [hxy]), if_pos (by rw [hxy])]
          · have hne : ¬ [f 0 x] = [f 0 y] := fun e => hxy (hinj 0 (by omega) x y hx hy (List.cons.inj e).1)
            rw [if_neg (by simpa using hxy), if_neg hne, fil x hx]
            refine Finset.sum_congr rfl fun a ha => ?_
            rw [fil y hy]
            refine Finset.sum_congr rfl fun b hb => ?_
            exact (a1 a b ((mem a).1 (Finset.mem_filter.1 ha).1) ((mem b).1 (Finset.mem_filter.1 hb).1)).symm
        · rw [out [x'] [y'] (fun a b g1 g2 g3 g4 => hy (hd1 b y' g2 g4))]
          split_ifs
          · rfl
          · exact (Finset.sum_eq_zero fun a _ => by rw [emp y' hy, Finset.sum_empty]).symm
      · rw [out [x'] [y'] (fun a b g1 g2 g3 g4 => hx (hd1 a x' g1 g3))]
        split_ifs
        · rfl
        · rw [emp x' hx, Finset.sum_empty])
  have l12' := l12.congr (S' := fun k x => k = 0 ∧ ∃ y, S 0 y ∧ x = f 0 y) (NL' := fun nl => ∃ x, nl = [x] ∧ ∃ y, S 0 y ∧ x = f 0 y)
      (R' := fun u w => if u = w then 0 else
        ∑ a ∈ m1.nodeLayers.toFinset with a.take 1 = u, ∑ b ∈ m1.nodeLayers.toFinset with b.take 1 = w, R1 a b)
    (fun _ _ _ => Iff.rfl) (fun _ => Iff.rfl) (fun _ _ _ _ => rfl)
  exact ⟨m1, m12, m2, m21, e1, e12, e2, e21, l12'.eq l21' (Or.inl rfl), l21'.eq l12' (Or.inl rfl)⟩

/-- the nodes 1 and 2 of a network with one aspect, selected before and after aggregating -/
example : ∃ m1 m12 m2 m21, (after 1 0 false true transOps).subnet [some [1, 2], none] false = .ok m1 ∧ m1.view.aggregate [1] false = .ok m12 ∧
    (after 1 0 false true transOps).view.aggregate [1] false = .ok m2 ∧ m2.subnet [some [1, 2]] false = .ok m21 ∧ m12.eq m21 = .ok true ∧
    m12.view.readItem [1, 2] = .ok (.weight 8) := by
  obtain ⟨m1, m12, m2, m21, e1, e12, e2, e21, e, -⟩ := C161_subnet_aggregate_partial (network_looks 1 0 false true transOps) (asp := [1])
    (by simp) (by simp) rfl (Or.inl rfl) (some [1, 2])
  refine ⟨m1, m12, m2, m21, e1, e12, e2, e21, e, ?_⟩
  cases e1
  cases e12
  decide +kernel

/-- **C161 is false in general**: the node 5, on no layer of a network that is not node-aligned, is left out by `subnet`, but not by
`aggregate`. -/
theorem C161_false : ∃ m m1 m12 m2 m21 : MNet Nat Int, m = after 1 0 false false (.addNode 5 none :: transOps) ∧
    m.subnet [some [1, 2, 5], none] false = .ok m1 ∧ m1.view.aggregate [1] false = .ok m12 ∧
    m.view.aggregate [1] false = .ok m2 ∧ m2.subnet [some [1, 2, 5]] false = .ok m21 ∧
    5 ∉ m12.iterNodes none ∧ 5 ∈ m21.iterNodes none ∧ m12.eq m21 = .ok false :=
  ⟨_, _, _, _, _, rfl, rfl, rfl, rfl, rfl, by decide +kernel, by decide +kernel, by decide +kernel⟩

/-- two nodes exchanged before and after aggregating a network that is not node-aligned -/
example : ∃ m1 m12 m2 m21, (after 1 0 false false transOps).relabel [(1, 2), (2, 1)] [[(10, 11), (11, 10)]] = .ok m1 ∧
    m1.view.aggregate [1] false = .ok m12 ∧ (after 1 0 false false transOps).view.aggregate [1] false = .ok m2 ∧
    m2.relabel [(1, 2), (2, 1)] [] = .ok m21 ∧ m12.eq m21 = .ok true ∧ m12.view.readItem [2, 3] = .ok (.weight 4) := by
  obtain ⟨m1, m12, m2, m21, e1, e12, e2, e21, e, -⟩ := C162_relabel_aggregate (network_looks 1 0 false false transOps) (asp := [1])
    (by simp) (by simp) rfl [(1, 2), (2, 1)] [[(10, 11), (11, 10)]] (fun k _ x y _ _ h => by
      rcases k with _ | _ | k <;> simp [Spec.newName, Dict.get] at h <;> try exact h
      all_goals split_ifs at h <;> simp only [Option.getD_some, Option.getD_none] at h <;> omega)
  refine ⟨m1, m12, m2, m21, e1, e12, e2, e21, e, ?_⟩
  cases e1
  cases e12
  decide +kernel

end Pymnet
