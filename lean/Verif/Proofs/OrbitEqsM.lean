import Verif.Proofs.OrbitEqs3

/-! Graphs with four nodes: what is lost when merged graphlets are compared without regard to the node. -/

set_option linter.unusedSectionVars false
set_option linter.unusedSimpArgs false
set_option linter.unusedVariables false

namespace Pymnet

open Py MPlex

variable {α W β σ : Type} [DecidableEq α] [DecidableEq W] [Zero W] [LawfulIntNames α] [LinearOrder α] [DecidableEq σ] [One W]
  {c : Coupling α W} {layers : List α} {p : MPlex α W} {g g' h : Spec.Multigraph α} {L : α → Prop} {v a b x y v' a' b' y' : α}
  {va vb vy ab ay by' va' vb' vy' ab' ay' by'' : α → Prop} {cpl : α → α → Prop} {al : List Nat}

/-- a graph with four nodes and the given links -/
structure FourG (L : α → Prop) (g : Spec.Multigraph α) (v a b y : α) (va vb vy ab ay by' : α → Prop) : Prop where
  layer : ∀ l, g.layer l ↔ L l
  node : ∀ z, g.node z ↔ z = v ∨ z = a ∨ z = b ∨ z = y
  ne : v ≠ a ∧ v ≠ b ∧ v ≠ y ∧ a ≠ b ∧ a ≠ y ∧ b ≠ y
  symm : ∀ l i j, g.link l i j → g.link l j i
  self : ∀ l i, ¬ g.link l i i
  lva : ∀ l, g.link l v a ↔ va l
  lvb : ∀ l, g.link l v b ↔ vb l
  lvy : ∀ l, g.link l v y ↔ vy l
  lab : ∀ l, g.link l a b ↔ ab l
  lay : ∀ l, g.link l a y ↔ ay l
  lby : ∀ l, g.link l b y ↔ by' l

theorem FourG.iff (h : FourG L g v a b y va vb vy ab ay by') {va' vb' vy' ab' ay' by'' : α → Prop} (h1 : ∀ l, va l ↔ va' l) (h2 : ∀ l, vb l ↔ vb' l)
    (h3 : ∀ l, vy l ↔ vy' l) (h4 : ∀ l, ab l ↔ ab' l) (h5 : ∀ l, ay l ↔ ay' l) (h6 : ∀ l, by' l ↔ by'' l) :
    FourG L g v a b y va' vb' vy' ab' ay' by'' :=
  ⟨h.layer, h.node, h.ne, h.symm, h.self, fun l => (h.lva l).trans (h1 l), fun l => (h.lvb l).trans (h2 l), fun l => (h.lvy l).trans (h3 l),
    fun l => (h.lab l).trans (h4 l), fun l => (h.lay l).trans (h5 l), fun l => (h.lby l).trans (h6 l)⟩

theorem FourG.iso (h : FourG L g v a b y va vb vy ab ay by') (h' : FourG L g' v' a' b' y' va vb vy ab ay by') (h0 : 0 ∈ al) :
    ∃ φ, MIso cpl al g g' φ id ∧ φ v = v' := by
  obtain ⟨n1, n2, n3, n4, n5, n6⟩ := h.ne
  obtain ⟨m1, m2, m3, m4, m5, m6⟩ := h'.ne
  let φ : α → α := fun z => if z = v then v' else if z = a then a' else if z = b then b' else y'
  have ev : φ v = v' := if_pos rfl
  have ea : φ a = a' := by simp only [φ, if_neg n1.symm, if_true]
  have eb : φ b = b' := by simp only [φ, if_neg n2.symm, if_neg n4.symm, if_true]
  have ey : φ y = y' := by simp only [φ, if_neg n3.symm, if_neg n5.symm, if_neg n6.symm]
  have sy : ∀ l i j, g.link l i j ↔ g.link l j i := fun l i j => ⟨h.symm l i j, h.symm l j i⟩
  have sy' : ∀ l i j, g'.link l i j ↔ g'.link l j i := fun l i j => ⟨h'.symm l i j, h'.symm l j i⟩
  refine ⟨φ, ⟨fun h => absurd h0 h, fun _ _ => rfl, ⟨?_, ?_, ?_⟩, ?_, ?_, fun _ _ _ _ => Iff.rfl⟩, ev⟩
  · intro z hz
    refine (h'.node _).2 ?_
    rcases (h.node z).1 hz with rfl | rfl | rfl | rfl
    · exact Or.inl ev
    · exact Or.inr (Or.inl ea)
    · exact Or.inr (Or.inr (Or.inl eb))
    · exact Or.inr (Or.inr (Or.inr ey))
  · intro z hz w hw e
    rcases (h.node z).1 hz with e1 | e1 | e1 | e1 <;> rcases (h.node w).1 hw with e2 | e2 | e2 | e2 <;> rw [e1, e2] at e ⊢ <;>
      simp only [ev, ea, eb, ey] at e
    · exact absurd e m1
    · exact absurd e m2
    · exact absurd e m3
    · exact absurd e.symm m1
    · exact absurd e m4
    · exact absurd e m5
    · exact absurd e.symm m2
    · exact absurd e.symm m4
    · exact absurd e m6
    · exact absurd e.symm m3
    · exact absurd e.symm m5
    · exact absurd e.symm m6
  · intro z hz
    rcases (h'.node z).1 hz with rfl | rfl | rfl | rfl
    · exact ⟨v, (h.node _).2 (by simp), ev⟩
    · exact ⟨a, (h.node _).2 (by simp), ea⟩
    · exact ⟨b, (h.node _).2 (by simp), eb⟩
    · exact ⟨y, (h.node _).2 (by simp), ey⟩
  · refine ⟨fun l hl => (h'.layer l).2 ((h.layer l).1 hl), Set.injOn_id _, fun l hl => ⟨l, (h.layer l).2 ((h'.layer l).1 hl), rfl⟩⟩
  · intro l i j _ hi hj
    simp only [id]
    rcases (h.node i).1 hi with e1 | e1 | e1 | e1 <;> rcases (h.node j).1 hj with e2 | e2 | e2 | e2 <;> rw [e1, e2] <;>
      simp only [ev, ea, eb, ey]
    · exact ⟨fun k => absurd k (h.self _ _), fun k => absurd k (h'.self _ _)⟩
    · rw [h.lva, h'.lva]
    · rw [h.lvb, h'.lvb]
    · rw [h.lvy, h'.lvy]
    · rw [sy, sy', h.lva, h'.lva]
    · exact ⟨fun k => absurd k (h.self _ _), fun k => absurd k (h'.self _ _)⟩
    · rw [h.lab, h'.lab]
    · rw [h.lay, h'.lay]
    · rw [sy, sy', h.lvb, h'.lvb]
    · rw [sy, sy', h.lab, h'.lab]
    · exact ⟨fun k => absurd k (h.self _ _), fun k => absurd k (h'.self _ _)⟩
    · rw [h.lby, h'.lby]
    · rw [sy, sy', h.lvy, h'.lvy]
    · rw [sy, sy', h.lay, h'.lay]
    · rw [sy, sy', h.lby, h'.lby]
    · exact ⟨fun k => absurd k (h.self _ _), fun k => absurd k (h'.self _ _)⟩

open Classical in
/-- the number of links in a layer -/
theorem FourG.count (h : FourG L g v a b y va vb vy ab ay by') (hn : ∀ l i j, g.link l i j → g.node i ∧ g.node j) (l : α) :
    {ij : α × α | g.link l ij.1 ij.2}.ncard = 2 * ((if va l then 1 else 0) + (if vb l then 1 else 0) + (if vy l then 1 else 0) +
      (if ab l then 1 else 0) + (if ay l then 1 else 0) + (if by' l then 1 else 0)) := by
  obtain ⟨n1, n2, n3, n4, n5, n6⟩ := h.ne
  have sy : ∀ l i j, g.link l i j ↔ g.link l j i := fun l i j => ⟨h.symm l i j, h.symm l j i⟩
  have hs : {ij : α × α | g.link l ij.1 ij.2} = (((({v, a, b, y} : Finset α) ×ˢ ({v, a, b, y} : Finset α)).filter
      fun ij => g.link l ij.1 ij.2 : Finset (α × α)) : Set (α × α)) := by
    ext ⟨i, j⟩
    simp only [Set.mem_setOf_eq, Finset.coe_filter, Finset.mem_product, Finset.mem_insert, Finset.mem_singleton]
    constructor
    · intro k
      obtain ⟨k1, k2⟩ := hn l i j k
      exact ⟨⟨(h.node i).1 k1, (h.node j).1 k2⟩, k⟩
    · exact fun k => k.2
  rw [hs, Set.ncard_coe_finset, Finset.card_filter, Finset.sum_product]
  simp only [Finset.sum_insert, Finset.mem_insert, Finset.mem_singleton, n1, n2, n3, n4, n5, n6, or_self, not_false_eq_true, Finset.sum_singleton,
    h.self, if_false, sy l a v, sy l b v, sy l y v, sy l b a, sy l y a, sy l y b, h.lva, h.lvb, h.lvy, h.lab, h.lay, h.lby]
  ring

theorem count_iso {f0 : α → α} {f1 : α → α} (hf : MIso cpl al g h f0 f1) {l : α} (hl : g.layer l) (h1 : f1 l = l)
    (hg : ∀ l i j, g.link l i j → g.node i ∧ g.node j) (hh : ∀ l i j, h.link l i j → h.node i ∧ h.node j) :
    {ij : α × α | g.link l ij.1 ij.2}.ncard = {ij : α × α | h.link l ij.1 ij.2}.ncard := by
  refine Set.ncard_congr (fun ij _ => (f0 ij.1, f0 ij.2)) ?_ ?_ ?_
  · rintro ⟨i, j⟩ k
    obtain ⟨k1, k2⟩ := hg l i j k
    have := (hf.links l i j hl k1 k2).1 k
    rwa [h1] at this
  · rintro ⟨i, j⟩ ⟨i', j'⟩ k k' e
    obtain ⟨k1, k2⟩ := hg l i j k
    obtain ⟨k3, k4⟩ := hg l i' j' k'
    obtain ⟨e1, e2⟩ := Prod.mk.inj e
    rw [hf.nodes.injOn k1 k3 e1, hf.nodes.injOn k2 k4 e2]
  · rintro ⟨i, j⟩ k
    obtain ⟨k1, k2⟩ := hh l i j k
    obtain ⟨i', hi', rfl⟩ := hf.nodes.surjOn k1
    obtain ⟨j', hj', rfl⟩ := hf.nodes.surjOn k2
    refine ⟨(i', j'), (hf.links l i' j' hl hi' hj').2 ?_, rfl⟩
    rw [h1]
    exact k

/-- five nodes: two graphlets that share `v` -/
structure FiveG (g : Spec.Multigraph α) (v a b x y : α) : Prop where
  node : ∀ z, g.node z ↔ z = v ∨ z = a ∨ z = b ∨ z = x ∨ z = y
  ne : v ≠ a ∧ v ≠ b ∧ v ≠ x ∧ v ≠ y ∧ a ≠ b ∧ a ≠ x ∧ a ≠ y ∧ b ≠ x ∧ b ≠ y ∧ x ≠ y
  symm : ∀ l i j, g.link l i j → g.link l j i
  self : ∀ l i, ¬ g.link l i i
  lay : ∀ l i j, g.link l i j → g.layer l ∧ g.node i ∧ g.node j
  cross : ∀ l, ¬ g.link l a x ∧ ¬ g.link l a y ∧ ¬ g.link l b x ∧ ¬ g.link l b y

theorem FiveG.swap1 (h : FiveG g v a b x y) : FiveG g v b a x y := by
  obtain ⟨n1, n2, n3, n4, n5, n6, n7, n8, n9, n10⟩ := h.ne
  refine ⟨fun z => (h.node z).trans (by tauto), ⟨n2, n1, n3, n4, n5.symm, n8, n9, n6, n7, n10⟩, h.symm, h.self, h.lay, fun l => ?_⟩
  obtain ⟨c1, c2, c3, c4⟩ := h.cross l
  exact ⟨c3, c4, c1, c2⟩

theorem FiveG.swap2 (h : FiveG g v a b x y) : FiveG g v a b y x := by
  obtain ⟨n1, n2, n3, n4, n5, n6, n7, n8, n9, n10⟩ := h.ne
  refine ⟨fun z => (h.node z).trans (by tauto), ⟨n1, n2, n4, n3, n5, n7, n6, n9, n8, n10.symm⟩, h.symm, h.self, h.lay, fun l => ?_⟩
  obtain ⟨c1, c2, c3, c4⟩ := h.cross l
  exact ⟨c2, c1, c4, c3⟩

/-- `x` is merged into `a`, and `b` and `y` are linked -/
def mergedG (g : Spec.Multigraph α) (a b x y : α) (R : α → Prop) : Spec.Multigraph α :=
  addK (mergeG g a x) fun l i j => R l ∧ i = b ∧ j = y

theorem mergedG_link {R : α → Prop} {l i j : α} : (mergedG g a b x y R).link l i j ↔
    ((g.link l i j ∧ i ≠ x ∧ j ≠ x) ∨ (i = a ∧ j ≠ x ∧ g.link l x j) ∨ (j = a ∧ i ≠ x ∧ g.link l x i)) ∨
      (R l ∧ i = b ∧ j = y) ∨ (R l ∧ j = b ∧ i = y) := Iff.rfl

theorem FiveG.merged_node (h : FiveG g v a b x y) {R : α → Prop} {l i j : α} (k : (mergedG g a b x y R).link l i j) :
    (mergedG g a b x y R).node i ∧ (mergedG g a b x y R).node j := by
  obtain ⟨n1, n2, n3, n4, n5, n6, n7, n8, n9, n10⟩ := h.ne
  have hm : ∀ z, z = v ∨ z = a ∨ z = b ∨ z = y → (mergedG g a b x y R).node z := by
    intro z k
    refine Or.inl (Or.inl ⟨(h.node z).2 (by tauto), ?_⟩)
    rcases k with rfl | rfl | rfl | rfl
    · exact n3
    · exact n6
    · exact n8
    · exact n10.symm
  have hz : ∀ z, g.node z → z ≠ x → (mergedG g a b x y R).node z := fun z k k2 => hm z (by have := (h.node z).1 k; tauto)
  rcases k with (k | k | k) | k | k
  · exact ⟨hz i (h.lay l _ _ k.1).2.1 k.2.1, hz j (h.lay l _ _ k.1).2.2 k.2.2⟩
  · exact ⟨hm i (Or.inr (Or.inl k.1)), hz j (h.lay l _ _ k.2.2).2.2 k.2.1⟩
  · exact ⟨hz i (h.lay l _ _ k.2.2).2.2 k.2.1, hm j (Or.inr (Or.inl k.1))⟩
  · exact ⟨hm i (Or.inr (Or.inr (Or.inl k.2.1))), hm j (Or.inr (Or.inr (Or.inr k.2.2)))⟩
  · exact ⟨hm i (Or.inr (Or.inr (Or.inr k.2.2))), hm j (Or.inr (Or.inr (Or.inl k.2.1)))⟩

theorem FiveG.merged (h : FiveG g v a b x y) (hm : ∀ l, g.link l v a ↔ g.link l v x) {R : α → Prop} (hR : ∀ l, R l → g.layer l) :
    FourG g.layer (mergedG g a b x y R) v a b y (fun l => g.link l v a) (fun l => g.link l v b) (fun l => g.link l v y)
      (fun l => g.link l a b) (fun l => g.link l x y) R := by
  obtain ⟨n1, n2, n3, n4, n5, n6, n7, n8, n9, n10⟩ := h.ne
  have sy : ∀ l i j, g.link l i j ↔ g.link l j i := fun l i j => ⟨h.symm l i j, h.symm l j i⟩
  refine ⟨?_, ?_, ⟨n1, n2, n4, n5, n7, n9⟩, ?_, ?_, ?_, ?_, ?_, ?_, ?_, ?_⟩
  · intro l
    constructor
    · rintro ((k | ⟨i, j, -, -, k⟩) | ⟨i, j, k, -⟩)
      · exact k
      · exact (h.lay l _ _ k).1
      · exact hR l k
    · exact fun k => Or.inl (Or.inl k)
  · intro z
    constructor
    · rintro ((⟨k, k2⟩ | ⟨l, i, j, ⟨k1, k2, k⟩, k4⟩) | ⟨l, i, j, ⟨-, rfl, rfl⟩, k⟩)
      · have := (h.node z).1 k
        tauto
      · rcases k4 with e | e
        · rw [e, k1]; tauto
        · rw [e]
          have := (h.node j).1 (h.lay l _ _ k).2.2
          tauto
      · rcases k with rfl | rfl <;> tauto
    · intro k
      refine Or.inl (Or.inl ⟨(h.node z).2 (by tauto), ?_⟩)
      rcases k with rfl | rfl | rfl | rfl
      · exact n3
      · exact n6
      · exact n8
      · exact n10.symm
  · intro l i j
    rw [mergedG_link, mergedG_link]
    rintro ((k | k | k) | k | k)
    · exact Or.inl (Or.inl ⟨h.symm l _ _ k.1, k.2.2, k.2.1⟩)
    · exact Or.inl (Or.inr (Or.inr k))
    · exact Or.inl (Or.inr (Or.inl k))
    · exact Or.inr (Or.inr k)
    · exact Or.inr (Or.inl k)
  · intro l i
    rw [mergedG_link]
    rintro ((k | ⟨rfl, k1, k⟩ | ⟨rfl, k1, k⟩) | ⟨-, rfl, k⟩ | ⟨-, rfl, k⟩)
    · exact h.self l i k.1
    · exact (h.cross l).1 ((sy l _ _).1 k)
    · exact (h.cross l).1 ((sy l _ _).1 k)
    · exact n9 k
    · exact n9 k
  · intro l
    rw [mergedG_link]
    have := hm l
    have := sy l v x
    have := n1
    simp only [n3, n6, n2, n4, n1, ne_eq, not_false_eq_true, and_true, false_and, or_false, true_and, and_false, false_or, n7]
    tauto
  · intro l
    rw [mergedG_link]
    simp only [n3, n1, n5.symm, n8, n4, n2, ne_eq, not_false_eq_true, and_true, false_and, or_false, true_and, and_false, false_or]
  · intro l
    rw [mergedG_link]
    simp only [n3, n1, n7.symm, n10.symm, n4, n2, ne_eq, not_false_eq_true, and_true, false_and, or_false, true_and, and_false, false_or]
  · intro l
    rw [mergedG_link]
    have c := (h.cross l).2.2.1
    rw [sy] at c
    simp only [n6, n8, n5, n5.symm, n7, n9, c, ne_eq, not_false_eq_true, and_true, false_and, or_false, true_and, and_false, false_or]
  · intro l
    rw [mergedG_link]
    have c := (h.cross l).2.1
    simp only [n6, n10.symm, n5, n7, n7.symm, n9.symm, c, ne_eq, not_false_eq_true, and_true, false_and, or_false, true_and, and_false, false_or]
  · intro l
    rw [mergedG_link]
    have c := (h.cross l).2.2.2
    simp only [n5.symm, n7.symm, n9, n9.symm, c, ne_eq, not_false_eq_true, and_true, false_and, or_false, true_and, and_false, false_or]

theorem mergedG_false : mergedG g a b x y (fun _ => False) = mergeG g a x := by
  unfold mergedG
  rw [addK_congr (L := fun _ _ _ => False), addK_false]
  intro l i j
  simp

/-- Merging other nodes instead gives the same graphs, if the graphs without further links are isomorphic. -/
theorem FiveG.other (h : FiveG g v a b x y) (hm : ∀ l, g.link l v a ↔ g.link l v x) {a' x' : α}
    (ha' : a' = a ∨ a' = b) (hx' : x' = x ∨ x' = y) (hm' : ∀ l, g.link l v a' ↔ g.link l v x') {f0 f1 : α → α}
    (hf : MIso cpl al (mergeG g a x) (mergeG g a' x') f0 f1) (hf1 : ∀ l, g.layer l → f1 l = l) {R : α → Prop} (hR : ∀ l, R l → g.layer l) :
    ∃ b' y', (b' = a ∨ b' = b) ∧ b' ≠ a' ∧ (y' = x ∨ y' = y) ∧ y' ≠ x' ∧
      FourG g.layer (mergedG g a' b' x' y' R) v a' b' y' (fun l => g.link l v a) (fun l => g.link l v b) (fun l => g.link l v y)
        (fun l => g.link l a b) (fun l => g.link l x y) R := by
  obtain ⟨n1, n2, n3, n4, n5, n6, n7, n8, n9, n10⟩ := h.ne
  have sy : ∀ l i j, g.link l i j ↔ g.link l j i := fun l i j => ⟨h.symm l i j, h.symm l j i⟩
  rcases ha' with rfl | rfl <;> rcases hx' with rfl | rfl
  · exact ⟨b, y, Or.inr rfl, n5.symm, Or.inr rfl, n10.symm, h.merged hm hR⟩
  · refine ⟨b, x, Or.inr rfl, n5.symm, Or.inl rfl, n10, (h.swap2.merged hm' hR).iff (fun _ => Iff.rfl) (fun _ => Iff.rfl)
      (fun l => ?_) (fun _ => Iff.rfl) (fun l => sy l _ _) fun _ => Iff.rfl⟩
    exact (hm l).symm.trans (hm' l)
  · refine ⟨a, y, Or.inl rfl, n5, Or.inr rfl, n10.symm, (h.swap1.merged hm' hR).iff (fun l => (hm' l).trans (hm l).symm)
      (fun l => (hm l).trans (hm' l).symm) (fun _ => Iff.rfl) (fun l => sy l _ _) (fun _ => Iff.rfl) fun _ => Iff.rfl⟩
  · have hab : ∀ l, g.link l v a ↔ g.link l v a' := by
      intro l
      by_cases hl : g.layer l
      swap
      · exact ⟨fun k => absurd (h.lay l _ _ k).1 hl, fun k => absurd (h.lay l _ _ k).1 hl⟩
      have hF : ∀ l, (fun _ => False : α → Prop) l → g.layer l := fun _ k => k.elim
      have F1 := h.merged hm hF
      have F2 := h.swap1.swap2.merged hm' hF
      have c1 := F1.count (fun _ _ _ k => h.merged_node k) l
      have c2 := F2.count (fun _ _ _ k => h.swap1.swap2.merged_node k) l
      have m1 : ∀ l i j, (mergeG g a x).link l i j → (mergeG g a x).node i ∧ (mergeG g a x).node j := by
        rw [← mergedG_false (b := a') (y := x')]
        exact fun _ _ _ k => h.merged_node k
      have m2 : ∀ l i j, (mergeG g a' x').link l i j → (mergeG g a' x').node i ∧ (mergeG g a' x').node j := by
        rw [← mergedG_false (b := a) (y := x)]
        exact fun _ _ _ k => h.swap1.swap2.merged_node k
      rw [mergedG_false] at c1 c2
      have c3 := count_iso hf (l := l) (Or.inl hl) (hf1 l hl) m1 m2
      rw [c1, c2] at c3
      have e1 : g.link l v x = g.link l v a := propext (hm l).symm
      have e2 : g.link l v x' = g.link l v a' := propext (hm' l).symm
      have e3 : g.link l a' a = g.link l a a' := propext (sy l a' a)
      have e4 : g.link l x' x = g.link l x x' := propext (sy l x' x)
      rw [e1, e2, e3, e4] at c3
      by_cases k1 : g.link l v a <;> by_cases k2 : g.link l v a'
      · exact ⟨fun _ => k2, fun _ => k1⟩
      · rw [if_pos k1, if_neg k2] at c3
        omega
      · rw [if_neg k1, if_pos k2] at c3
        omega
      · exact ⟨fun k => absurd k k1, fun k => absurd k k2⟩
    refine ⟨a, x, Or.inl rfl, n5, Or.inl rfl, n10, (h.swap1.swap2.merged hm' hR).iff (fun l => (hab l).symm) hab
      (fun l => (hm l).symm.trans ((hab l).trans (hm' l))) (fun l => sy l _ _) (fun l => sy l _ _) fun _ => Iff.rfl⟩

end Pymnet
