import Verif.Model.PlexTransforms
import Verif.Proofs.BuildM
import Verif.Proofs.Subnet

/-! `subnet` of a multiplex network. -/

set_option linter.unusedSectionVars false
set_option linter.unusedSimpArgs false

namespace Pymnet

open Py MPlex

variable {α W : Type} [DecidableEq α] [DecidableEq W] [Zero W]

variable {p : MPlex α W} {cs : List (Coupling α W)} {dir al : Bool} {z : W} {ns : Prop} {S : α → Prop}
  {LY : Nat → α → Prop} {NL : α → List α → Prop} {R : List α → α → α → W}

namespace BuiltX

/-- a loop of assignments to one layer -/
theorem intraSets (h : BuiltX p cs dir z al ns S LY NL R) (hcs : cs ≠ []) {s : List α} (hs : LYs cs.length LY s) {β : Type}
    (l : List β) (pr : β → Prop) (u v : β → α) (w : β → W) {g : MPlex α W → β → Except Err (MPlex α W)}
    (hg : ∀ p y, y ∈ l → pr y → g p y = (p.childSetItem (.ofList s) (u y) (v y) (w y)).toExcept)
    (hg' : ∀ p y, y ∈ l → ¬ pr y → g p y = .ok p) (hns : ns → ∀ y ∈ l, pr y → u y ≠ v y)
    (hw : ∀ y ∈ l, pr y → dir = false → u y = v y → w y ≠ 0) :
    ∃ p' R', forE g l p = .ok p' ∧
      BuiltX p' cs dir z al ns (fun x => S x ∨ ∃ y ∈ l, pr y ∧ (x = u y ∨ x = v y)) LY
        (fun n t => NL n t ∨ (t = s ∧ ∃ y ∈ l, pr y ∧ (n = u y ∨ n = v y))) R' ∧
      ∀ t a b, (t = s ∧ ∃ y ∈ l, pr y ∧ Spec.SameLink dir (u y) (v y) a b ∧ R' t a b = w y) ∨
        ((¬ (t = s ∧ ∃ y ∈ l, pr y ∧ Spec.SameLink dir (u y) (v y) a b)) ∧ R' t a b = R t a b) := by
  classical
  have := forE_ok (f := g) (P := fun pre p' => ∃ R',
      BuiltX p' cs dir z al ns (fun x => S x ∨ ∃ y ∈ pre, pr y ∧ (x = u y ∨ x = v y)) LY
        (fun n t => NL n t ∨ (t = s ∧ ∃ y ∈ pre, pr y ∧ (n = u y ∨ n = v y))) R' ∧
      ∀ t a b, (t = s ∧ ∃ y ∈ pre, pr y ∧ Spec.SameLink dir (u y) (v y) a b ∧ R' t a b = w y) ∨
        ((¬ (t = s ∧ ∃ y ∈ pre, pr y ∧ Spec.SameLink dir (u y) (v y) a b)) ∧ R' t a b = R t a b)) l
    (s := p) ⟨R, h.congr (by simp) (by simp) (by simp) (by simp), fun t a b => Or.inr ⟨by simp, rfl⟩⟩ ?_
  · obtain ⟨m', h1, R', h2, h3⟩ := this
    exact ⟨m', R', h1, h2, h3⟩
  intro pre b post m1 hpre ⟨R1, h1, h1r⟩
  have hb : b ∈ l := by rw [hpre]; simp
  by_cases hp : pr b
  · obtain ⟨m2, e, h2⟩ := h1.intraSet hcs hs (i := u b) (j := v b) (w := w b) (fun hn => hns hn b hb hp) (hw b hb hp)
    refine ⟨m2, (hg m1 b hb hp).trans e, _, h2.congr (fun x => ?_) (fun _ _ _ _ => Iff.rfl) (fun _ n t _ => ?_) (fun _ _ _ _ => rfl),
      fun t a c => ?_⟩
    · simp only [List.mem_append, List.mem_singleton, or_and_right, exists_or, exists_eq_left, hp, true_and, or_assoc]
    · rw [or_assoc]
      refine or_congr_right ⟨?_, ?_⟩
      · rintro (⟨e', y, y1, y2⟩ | ⟨e', y⟩)
        · exact ⟨e', y, by simp [y1], y2⟩
        · exact ⟨e', b, by simp, hp, y⟩
      · rintro ⟨e', y, y1, y2, y3⟩
        simp only [List.mem_append, List.mem_singleton] at y1
        rcases y1 with y1 | rfl
        · exact .inl ⟨e', y, y1, y2, y3⟩
        · exact .inr ⟨e', y3⟩
    · by_cases hc : t = s ∧ Spec.SameLink dir (u b) (v b) a c
      · exact Or.inl ⟨hc.1, b, by simp, hp, hc.2, if_pos hc⟩
      · rw [if_neg hc]
        rcases h1r t a c with ⟨y0, y, y1, y2, y3, y4⟩ | ⟨y1, y2⟩
        · exact Or.inl ⟨y0, y, by simp [y1], y2, y3, y4⟩
        · refine Or.inr ⟨?_, y2⟩
          rintro ⟨ht, y, hy, hpy, hsl⟩
          simp only [List.mem_append, List.mem_singleton] at hy
          rcases hy with hy | rfl
          · exact y1 ⟨ht, y, hy, hpy, hsl⟩
          · exact hc ⟨ht, hsl⟩
  · refine ⟨m1, hg' m1 b hb hp, R1, h1.congr (fun x => ?_) (fun _ _ _ _ => Iff.rfl) (fun _ n t _ => ?_) (fun _ _ _ _ => rfl),
      fun t a c => ?_⟩
    · simp only [List.mem_append, List.mem_singleton, or_and_right, exists_or, exists_eq_left, hp, false_and, or_false]
    · simp only [List.mem_append, List.mem_singleton, or_and_right, exists_or, exists_eq_left, hp, false_and, or_false]
    · rcases h1r t a c with ⟨y0, y, y1, y2⟩ | ⟨y1, y2⟩
      · exact Or.inl ⟨y0, y, by simp [y1], y2⟩
      · refine Or.inr ⟨?_, y2⟩
        rintro ⟨ht, y, hy, hpy, hsl⟩
        simp only [List.mem_append, List.mem_singleton] at hy
        rcases hy with hy | rfl
        · exact y1 ⟨ht, y, hy, hpy, hsl⟩
        · exact absurd hpy hp

end BuiltX

theorem mem_product_one {nodes : List α} {a : List α} : a ∈ product [nodes] ↔ ∃ x ∈ nodes, a = [x] := by
  simp [Py.product, eq_comm]

/-- a monoplex network: neighbours have one name -/
theorem MNet.Inv.one {c : MNet α W} (h : c.Inv) (ha : c.aspects = 0) {a b : List α} (hne : c.reads a b ≠ c.noEdge) :
    (∃ x, a = [x] ∧ x ∈ c.slices.headD []) ∧ ∃ y, b = [y] ∧ y ∈ c.slices.headD [] := by
  obtain ⟨w, hw⟩ := Option.isSome_iff_exists.1 ((MNet.reads_ne_noEdge h.l ..).1 hne)
  have key : ∀ a, a ∈ product c.slices → ∃ x, a = [x] ∧ x ∈ c.slices.headD [] := by
    intro a ha'
    rw [MNet.headD_of_inv h.r ha] at ha'
    obtain ⟨x, hx, rfl⟩ := mem_product_one.1 ha'
    exact ⟨x, rfl, hx⟩
  exact ⟨key a ((MNet.reg_iff h.r a).1 (h.reg a b w hw).1), key b ((MNet.reg_iff h.r b).1 (h.reg a b w hw).2)⟩

theorem subnetA_spec (h : BuiltX p cs dir z al ns S LY NL R) (hcs : cs ≠ []) {s : List α} (hs : LYs cs.length LY s)
    {c : MNet α W} (hc : c.Inv) (ha : c.aspects = 0) (hd : c.directed = dir) (hz : c.noEdge = 0)
    (hself : ns → ∀ i, c.reads [i] [i] = 0) (nodes : List α) (hR : ∀ a b, R s a b = 0) :
    ∃ p', subnetA c.view nodes (.ofList s) p = .ok p' ∧
      BuiltX p' cs dir z al ns (fun x => S x ∨ (x ∈ nodes ∧ x ∈ c.slices.headD [])) LY
        (fun n t => NL n t ∨ (t = s ∧ n ∈ nodes ∧ n ∈ c.slices.headD []))
        (fun t a b => if t = s ∧ a ∈ nodes ∧ b ∈ nodes then c.reads [a] [b] else R t a b) := by
  have hso := hc.sound
  -- the nodes
  obtain ⟨p1, e1, h1⟩ := forE_ok
    (f := fun (p : MPlex α W) x => if x ∈ c.view.slices.headD [] then (p.childAddNode (.ofList s) x).toExcept else .ok p)
    (P := fun pre p' => BuiltX p' cs dir z al ns (fun x => S x ∨ (x ∈ pre ∧ x ∈ c.slices.headD [])) LY
        (fun n t => NL n t ∨ (t = s ∧ n ∈ pre ∧ n ∈ c.slices.headD [])) R) nodes (s := p)
    (h.congr (by simp) (by simp) (by simp) (by simp)) (by
      intro pre x post q _ hq
      change ∃ s', (if x ∈ c.slices.headD [] then _ else _) = _ ∧ _
      by_cases hx : x ∈ c.slices.headD []
      · rw [if_pos hx]
        obtain ⟨q', e, hq'⟩ := hq.intraAddNode hcs hs x
        refine ⟨q', e, hq'.congr (fun y => ?_) (fun _ _ _ _ => Iff.rfl) (fun _ n t _ => ?_) (fun _ _ _ _ => rfl)⟩
        · rw [or_assoc]
          refine or_congr_right ⟨?_, ?_⟩
          · rintro (⟨h1, h2⟩ | rfl)
            · exact ⟨by simp [h1], h2⟩
            · exact ⟨by simp, hx⟩
          · rintro ⟨h1, h2⟩
            simp only [List.mem_append, List.mem_singleton] at h1
            rcases h1 with h1 | h1
            · exact .inl ⟨h1, h2⟩
            · exact .inr h1
        · rw [or_assoc]
          refine or_congr_right ⟨?_, ?_⟩
          · rintro (⟨h1, h2, h3⟩ | ⟨rfl, rfl⟩)
            · exact ⟨h1, by simp [h2], h3⟩
            · exact ⟨rfl, by simp, hx⟩
          · rintro ⟨h0, h1, h2⟩
            simp only [List.mem_append, List.mem_singleton] at h1
            rcases h1 with h1 | h1
            · exact .inl ⟨h0, h1, h2⟩
            · exact .inr ⟨h1, h0⟩
      · rw [if_neg hx]
        refine ⟨q, rfl, hq.congr (fun y => or_congr_right ?_) (fun _ _ _ _ => Iff.rfl) (fun _ n t _ => or_congr_right ?_)
          (fun _ _ _ _ => rfl)⟩
        · simp only [List.mem_append, List.mem_singleton]
          exact ⟨fun h => ⟨.inl h.1, h.2⟩, fun ⟨h1, h2⟩ => h1.elim (fun h1 => ⟨h1, h2⟩) fun e => absurd (e ▸ h2) hx⟩
        · simp only [List.mem_append, List.mem_singleton]
          exact ⟨fun h => ⟨h.1, .inl h.2.1, h.2.2⟩,
            fun ⟨h0, h1, h2⟩ => h1.elim (fun h1 => ⟨h0, h1, h2⟩) fun e => absurd (e ▸ h2) hx⟩)
  -- the links
  set total := subnetCount c.view [nodes] with htot
  have mem_pairs : ∀ y, y ∈ copyPairs c [nodes] total → ∃ i j, y = ([i], [j]) ∧ i ∈ nodes ∧ j ∈ nodes ∧
      ((total : Int) ≤ c.deg [i] none ∨ (c.reads [i] [j] ≠ 0 ∨ c.reads [j] [i] ≠ 0)) := by
    rintro ⟨a, b⟩ hp
    simp only [copyPairs, List.mem_flatMap, List.mem_map, Prod.mk.injEq] at hp
    obtain ⟨a', ha', b', hb, rfl, rfl⟩ := hp
    obtain ⟨i, hi, rfl⟩ := mem_product_one.1 ha'
    split at hb
    · rename_i hle
      obtain ⟨j, hj, rfl⟩ := mem_product_one.1 hb
      exact ⟨i, j, rfl, hi, hj, .inl hle⟩
    · rw [List.mem_filter, MNet.mem_iterTotal hc.l, ← MNet.reads_ne_noEdge hc.l, ← MNet.reads_ne_noEdge hc.l] at hb
      have hor := hb.1.1
      obtain ⟨j, rfl⟩ : ∃ j, b' = [j] := by
        rcases hor with hne | hne
        · obtain ⟨-, j, rfl, -⟩ := hc.one ha hne; exact ⟨j, rfl⟩
        · obtain ⟨⟨j, rfl, -⟩, -⟩ := hc.one ha hne; exact ⟨j, rfl⟩
      have hj : j ∈ nodes := by
        have := (inSets_iff (sets := [nodes]) (a := [j]) rfl).1 hb.2
        obtain ⟨x, hx, e⟩ := mem_product_one.1 this
        cases e; exact hx
      rw [hz] at hor
      exact ⟨i, j, rfl, hi, hj, .inr hor⟩
  have pairs_mem : ∀ i j, i ∈ nodes → j ∈ nodes → c.reads [i] [j] ≠ 0 → ([i], [j]) ∈ copyPairs c [nodes] total := by
    intro i j hi hj hne
    simp only [copyPairs, List.mem_flatMap, List.mem_map, Prod.mk.injEq]
    refine ⟨[i], mem_product_one.2 ⟨i, hi, rfl⟩, [j], ?_, rfl, rfl⟩
    split
    · exact mem_product_one.2 ⟨j, hj, rfl⟩
    · rw [List.mem_filter, MNet.mem_iterTotal hc.l, ← MNet.reads_ne_noEdge hc.l, hz]
      exact ⟨⟨Or.inl hne, by simp [dimsOk]⟩, (inSets_iff (sets := [nodes]) (a := [j]) rfl).2 (mem_product_one.2 ⟨j, hj, rfl⟩)⟩
  have hloop : forE (copyNodeA c.view (.ofList s) [nodes] total) (product [nodes]) p1 =
      forE (fun (n : MPlex α W) (y : List α × List α) =>
        copyLinkA c.view (.ofList s) (decide ((total : Int) ≤ c.deg y.1 none)) y.1 n y.2) (copyPairs c [nodes] total) p1 := by
    unfold copyPairs
    rw [← forE_nested (fun a n b => copyLinkA c.view (.ofList s) (decide ((total : Int) ≤ c.deg a none)) a n b)]
    congr 1
    funext n a
    unfold copyNodeA
    simp only [MNet.view]
    by_cases hc : (total : Int) ≤ c.deg a none
    · simp [hc]
    · simp [hc]
  let hd1 : List α × List α → List α := fun y => y.1
  have hget : ∀ i j, c.view.nodeGet [i] ([j].map .val) = .ok (.weight (c.reads [i] [j])) := fun i j =>
    MNet.nodeGet_eq (by simp [ha]) (by simp [ha])
  have hvz : c.view.noEdge = 0 := hz
  -- the pairs as pairs of nodes
  have hne : ∀ y ∈ copyPairs c [nodes] total, ∃ i j, y = ([i], [j]) := by
    intro y hy; obtain ⟨i, j, e, -⟩ := mem_pairs y hy; exact ⟨i, j, e⟩
  obtain ⟨pl, hpl⟩ : ∃ pl : List (α × α), copyPairs c [nodes] total = pl.map fun q => ([q.1], [q.2]) := by
    have : ∀ l : List (List α × List α), (∀ y ∈ l, ∃ i j, y = ([i], [j])) →
        ∃ pl : List (α × α), l = pl.map fun q => ([q.1], [q.2]) := by
      intro l
      induction l with
      | nil => exact fun _ => ⟨[], rfl⟩
      | cons y l ih =>
        intro h
        obtain ⟨i, j, rfl⟩ := h y (by simp)
        obtain ⟨pl, rfl⟩ := ih fun y hy => h y (by simp [hy])
        exact ⟨(i, j) :: pl, rfl⟩
    exact this _ hne
  have hmem : ∀ q, q ∈ pl → (q.1 ∈ nodes ∧ q.2 ∈ nodes ∧
      ((total : Int) ≤ c.deg [q.1] none ∨ (c.reads [q.1] [q.2] ≠ 0 ∨ c.reads [q.2] [q.1] ≠ 0))) := by
    intro q hq
    obtain ⟨i, j, e, h2⟩ := mem_pairs ([q.1], [q.2]) (by rw [hpl]; exact List.mem_map.2 ⟨q, hq, rfl⟩)
    simp only [Prod.mk.injEq, List.cons.injEq, and_true] at e
    rw [e.1, e.2]; exact h2
  have hmem' : ∀ i j, i ∈ nodes → j ∈ nodes → c.reads [i] [j] ≠ 0 → (i, j) ∈ pl := by
    intro i j hi hj h0
    have := pairs_mem i j hi hj h0
    rw [hpl] at this
    obtain ⟨q, hq, e⟩ := List.mem_map.1 this
    simp only [Prod.mk.injEq, List.cons.injEq, and_true] at e
    rw [← e.1, ← e.2]; exact hq
  have forE_map : ∀ (l : List (α × α)) (g : MPlex α W → List α × List α → Except Err (MPlex α W)) (q : MPlex α W),
      forE g (l.map fun q => ([q.1], [q.2])) q = forE (fun n y => g n ([y.1], [y.2])) l q := by
    intro l g
    induction l with
    | nil => intro q; rfl
    | cons y l ih =>
      intro q
      simp only [List.map_cons, forE]
      cases g q ([y.1], [y.2]) with
      | error e => rfl
      | ok q => exact ih q
  obtain ⟨p2, R', e2, h2, h3⟩ := h1.intraSets hcs hs pl
    (fun q => (total : Int) ≤ c.deg [q.1] none → c.reads [q.1] [q.2] ≠ 0) (fun q => q.1) (fun q => q.2)
    (fun q => c.reads [q.1] [q.2])
    (g := fun (n : MPlex α W) (y : α × α) =>
      copyLinkA c.view (.ofList s) (decide ((total : Int) ≤ c.deg [y.1] none)) [y.1] n [y.2])
    (by
      intro n q hq hpp
      unfold copyLinkA
      simp only [hget, Item.num]
      rw [if_neg]
      rintro ⟨ht, hw⟩
      exact hpp (by simpa using ht) (by rw [hw, hvz]))
    (by
      intro n q hq hpp
      rw [Classical.not_imp, not_not] at hpp
      unfold copyLinkA
      simp only [hget, Item.num]
      rw [if_pos ⟨by simpa using hpp.1, by rw [hpp.2, hvz]⟩])
    (by
      intro hn q hq hpp e
      rcases (hmem q hq).2.2 with h4 | h4
      · have := hpp h4; rw [e] at this; exact this (hself hn _)
      · rw [e] at h4; exact h4.elim (fun h => h (hself hn _)) fun h => h (hself hn _))
    (by
      intro q hq hpp _ e
      rcases (hmem q hq).2.2 with h4 | h4
      · exact hpp h4
      · rw [e] at h4 ⊢; exact h4.elim id id)
  have wr : ∀ q ∈ pl, ((total : Int) ≤ c.deg [q.1] none → c.reads [q.1] [q.2] ≠ 0) →
      (q.1 ∈ nodes ∧ q.1 ∈ c.slices.headD []) ∧ (q.2 ∈ nodes ∧ q.2 ∈ c.slices.headD []) := by
    intro q hq hpp
    obtain ⟨n1, n2, n3⟩ := hmem q hq
    have : c.reads [q.1] [q.2] ≠ 0 ∨ c.reads [q.2] [q.1] ≠ 0 := n3.elim (fun h => .inl (hpp h)) id
    rw [← hz] at this
    rcases this with h4 | h4
    · obtain ⟨⟨x, ex, hx⟩, y, ey, hy⟩ := hc.one ha h4
      cases ex; cases ey; exact ⟨⟨n1, hx⟩, n2, hy⟩
    · obtain ⟨⟨x, ex, hx⟩, y, ey, hy⟩ := hc.one ha h4
      cases ex; cases ey; exact ⟨⟨n1, hy⟩, n2, hx⟩
  refine ⟨p2, ?_, h2.congr (fun x => ?_) (fun _ _ _ _ => Iff.rfl) (fun _ n t _ => ?_) (fun t a b _ => ?_)⟩
  · unfold subnetA
    rw [if_neg (by change ¬ c.aspects ≠ 0; simp [ha]), e1]
    dsimp only
    rw [← htot, hloop, hpl, forE_map]
    exact e2
  · refine or_iff_left_of_imp ?_
    rintro ⟨q, hq, hpp, rfl | rfl⟩
    · exact .inr (wr q hq hpp).1
    · exact .inr (wr q hq hpp).2
  · refine or_iff_left_of_imp ?_
    rintro ⟨rfl, q, hq, hpp, rfl | rfl⟩
    · exact .inr ⟨rfl, (wr q hq hpp).1⟩
    · exact .inr ⟨rfl, (wr q hq hpp).2⟩
  · have hsym : dir = false → ∀ i j, c.reads [i] [j] = c.reads [j] [i] := by
      intro hd' i j
      unfold MNet.reads; rw [hc.l.sym (hd.trans hd')]
    rcases h3 t a b with ⟨ht, q, hq, hpp, hsl, e⟩ | ⟨hno, e⟩
    · rw [e]
      obtain ⟨w1, w2⟩ := wr q hq hpp
      rcases hsl with ⟨rfl, rfl⟩ | ⟨hd', rfl, rfl⟩
      · rw [if_pos ⟨ht, w1.1, w2.1⟩]
      · rw [if_pos ⟨ht, w2.1, w1.1⟩]; exact hsym hd' _ _
    · rw [e]
      split
      · rename_i hcc
        obtain ⟨rfl, ha', hb'⟩ := hcc
        rw [hR]
        by_contra hne0
        have hne1 : c.reads [a] [b] ≠ 0 := fun e => hne0 e.symm
        exact hno ⟨rfl, (a, b), hmem' a b ha' hb' hne1, fun _ => hne1, .inl ⟨rfl, rfl⟩⟩
      · rfl

end Pymnet
