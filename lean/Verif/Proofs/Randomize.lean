import Verif.Model.Randomize
import Verif.Spec.Randomize
import Verif.Proofs.Super
import Verif.Proofs.Full
import Verif.Props.PlexSubnet

/-! `randomize_nodes_by_layer`. -/

set_option linter.unusedSectionVars false
set_option linter.unusedSimpArgs false

namespace Pymnet

open Py MPlex

variable {α W : Type} [DecidableEq α] [DecidableEq W] [Zero W]

/-- Internal: the map made of a list and its shuffled version. -/
def shuffled (l sh : List α) (x : α) : α := (Dict.get (l.zip sh) x).getD x

theorem get_zip_map {l sh : List α} (hn : l.Nodup) (hlen : sh.length = l.length) :
    (∀ x ∈ l, Dict.get (l.zip sh) x = some (shuffled l sh x)) ∧ l.map (shuffled l sh) = sh := by
  induction l generalizing sh with
  | nil => simp only [List.length_nil, List.length_eq_zero_iff] at hlen; simp [hlen]
  | cons a t ih =>
    match sh, hlen with
    | b :: sh, hlen =>
      have hn' := (List.nodup_cons.1 hn)
      obtain ⟨h1, h2⟩ := ih hn'.2 (sh := sh) (by simpa using hlen)
      have hc : ∀ x ∈ t, Dict.get ((a :: t).zip (b :: sh)) x = Dict.get (t.zip sh) x := by
        intro x hx
        have : a ≠ x := fun e => hn'.1 (e ▸ hx)
        simp [Dict.get, this]
      have ha : Dict.get ((a :: t).zip (b :: sh)) a = some b := by simp [Dict.get]
      have hs : ∀ x ∈ t, shuffled (a :: t) (b :: sh) x = shuffled t sh x := by
        intro x hx; unfold shuffled; rw [hc x hx]
      constructor
      · intro x hx
        rcases List.mem_cons.1 hx with rfl | hx
        · rw [ha]; unfold shuffled; rw [ha]; rfl
        · rw [hc x hx, hs x hx, h1 x hx]
      · rw [List.map_cons, List.map_congr_left hs, h2]
        congr 1
        unfold shuffled; rw [ha]; rfl

theorem shuffled_bij {l sh : List α} (hn : l.Nodup) (hp : sh.Perm l) :
    (∀ x ∈ l, shuffled l sh x ∈ l) ∧ (∀ x ∈ l, ∀ y ∈ l, shuffled l sh x = shuffled l sh y → x = y) ∧
      ∀ y ∈ l, ∃ x ∈ l, shuffled l sh x = y := by
  have hm := (get_zip_map hn hp.length_eq).2
  refine ⟨fun x hx => ?_, ?_, fun y hy => ?_⟩
  · refine hp.mem_iff.1 ?_
    have := List.mem_map_of_mem (f := shuffled l sh) hx
    rw [hm] at this; exact this
  · have : (l.map (shuffled l sh)).Nodup := by rw [hm]; exact hp.nodup_iff.2 hn
    exact fun x hx y hy e => List.inj_on_of_nodup_map this hx hy e
  · have := hp.mem_iff.2 hy
    rw [← hm] at this
    obtain ⟨x, hx, e⟩ := List.mem_map.1 this
    exact ⟨x, hx, e⟩

variable {q : MPlex α W} {cs : List (Coupling α W)} {dir al : Bool} {z : W} {ns : Prop} {S : α → Prop}
  {LY : Nat → α → Prop} {NL : α → List α → Prop} {R : List α → α → α → W}

/-- One layer. -/
theorem shuffleLayer_spec (h : BuiltX q cs dir z al ns S LY NL R) (hcs : cs ≠ []) {s : List α} (hs : LYs cs.length LY s)
    {p : MPlex α W} {c : MNet α W} (hch : p.child? (.ofList s) = some c) (hc : c.Inv) (ha : c.aspects = 0) (hd : c.directed = dir)
    (hz : c.noEdge = 0) (hself : ns → ∀ i, c.reads [i] [i] = 0) (hR : ∀ a b, R s a b = 0)
    {shuf : LKey α → List α → List α} (hsh : (shuf (.ofList s) (c.slices.headD [])).Perm (c.slices.headD [])) :
    ∃ q' R', shuffleLayer p shuf q (.ofList s) = .ok q' ∧
      BuiltX q' cs dir z al ns (fun x => S x ∨ x ∈ c.slices.headD []) LY (fun n t => NL n t ∨ (t = s ∧ n ∈ c.slices.headD [])) R' ∧
      (∀ t, t ≠ s → ∀ a b, R' t a b = R t a b) ∧
      ∀ i ∈ c.slices.headD [], ∀ j ∈ c.slices.headD [],
        R' s (shuffled (c.slices.headD []) (shuf (.ofList s) (c.slices.headD [])) i)
          (shuffled (c.slices.headD []) (shuf (.ofList s) (c.slices.headD [])) j) = c.reads [i] [j] := by
  classical
  have hslice := MNet.headD_of_inv hc.r ha
  set l := c.slices.headD [] with hl
  have hn : l.Nodup := hc.r.snodup l (by rw [hslice]; simp)
  set sh := shuf (.ofList s) l with hshd
  set f := shuffled l sh with hf
  obtain ⟨b1, b2, b3⟩ := shuffled_bij hn hsh
  -- the nodes
  obtain ⟨q1, e1, h1⟩ := forE_ok
    (f := fun (new : MPlex α W) n => (new.childAddNode (.ofList s) n).toExcept)
    (P := fun pre q' => BuiltX q' cs dir z al ns (fun x => S x ∨ x ∈ pre) LY (fun n t => NL n t ∨ (t = s ∧ n ∈ pre)) R) l (s := q)
    (h.congr (by simp) (by simp) (by simp) (by simp)) (by
      intro pre x post q0 _ hq
      obtain ⟨q', e, hq'⟩ := hq.intraAddNode hcs hs x
      refine ⟨q', e, hq'.congr (fun y => ?_) (fun _ _ _ _ => Iff.rfl) (fun _ n t _ => ?_) (fun _ _ _ _ => rfl)⟩
      · simp only [List.mem_append, List.mem_singleton]; tauto
      · simp only [List.mem_append, List.mem_singleton]; tauto)
  -- the links
  obtain ⟨ps, p1, p2, p3, p4, p5⟩ := hc.sound.edges
  have hmem : ∀ x, [x] ∈ product c.slices ↔ x ∈ l := by
    intro x
    rw [hslice, mem_product_one]
    constructor
    · rintro ⟨y, hy, e⟩; cases e; exact hy
    · intro hx; exact ⟨x, hx, rfl⟩
  have hone : ∀ a, a ∈ product c.slices → ∃ x ∈ l, a = [x] := by
    intro a ha
    rw [hslice, mem_product_one] at ha
    exact ha
  have hps : ∀ y ∈ ps, ∃ i ∈ l, ∃ j ∈ l, y = ([i], [j]) ∧ c.reads [i] [j] ≠ 0 := by
    rintro ⟨a, b⟩ hy
    obtain ⟨g1, g2, g3⟩ := p3 _ hy
    obtain ⟨i, hi, e⟩ := hone a g1
    obtain ⟨j, hj, e'⟩ := hone b g2
    refine ⟨i, hi, j, hj, by rw [e, e'], ?_⟩
    rw [← hz, ← e, ← e']; exact g3
  obtain ⟨pl, hpl⟩ : ∃ pl : List (α × α), ps = pl.map fun y => ([y.1], [y.2]) := by
    clear p1 p2 p3 p4 p5
    induction ps with
    | nil => exact ⟨[], rfl⟩
    | cons y t ih =>
      obtain ⟨pl, rfl⟩ := ih (fun y hy => hps y (by simp [hy]))
      obtain ⟨i, -, j, -, rfl, -⟩ := hps y (by simp)
      exact ⟨(i, j) :: pl, rfl⟩
  have hin : ∀ y ∈ pl, y.1 ∈ l ∧ y.2 ∈ l ∧ c.reads [y.1] [y.2] ≠ 0 := by
    intro y hy
    obtain ⟨i, hi, j, hj, e, hne⟩ := hps ([y.1], [y.2]) (by rw [hpl]; exact List.mem_map_of_mem (f := fun y => ([y.1], [y.2])) hy)
    simp only [Prod.mk.injEq, List.cons.injEq, and_true] at e
    rw [e.1, e.2]; exact ⟨hi, hj, hne⟩
  have hmpl : ∀ i j, ([i], [j]) ∈ ps ↔ (i, j) ∈ pl := by
    intro i j
    rw [hpl, List.mem_map]
    constructor
    · rintro ⟨y, hy, e⟩
      simp only [Prod.mk.injEq, List.cons.injEq, and_true] at e
      rw [← e.1, ← e.2]; exact hy
    · intro h; exact ⟨_, h, rfl⟩
  have hget := (get_zip_map hn hsh.length_eq).1
  obtain ⟨q2, R', e2, h2, h3⟩ := h1.intraSets hcs hs pl (fun _ => True) (fun y => f y.1) (fun y => f y.2)
    (fun y => c.reads [y.1] [y.2])
    (g := fun (n : MPlex α W) (y : α × α) => shuffleEdge (.ofList s) (l.zip sh) n ([y.1, y.2], c.reads [y.1] [y.2]))
    (by
      intro n y hy _
      unfold shuffleEdge
      simp only [hget y.1 (hin y hy).1, hget y.2 (hin y hy).2.1]
      rfl)
    (by intro n y _ h; exact absurd trivial h)
    (by
      intro hns y hy _ e
      have := b2 _ (hin y hy).1 _ (hin y hy).2.1 e
      exact (hin y hy).2.2 (by rw [← this]; exact hself hns _))
    (fun y hy _ _ _ => (hin y hy).2.2)
  refine ⟨q2, R', ?_, h2.congr (fun x => ?_) (fun _ _ _ _ => Iff.rfl) (fun _ n t _ => ?_) (fun _ _ _ _ => rfl), ?_, ?_⟩
  · unfold shuffleLayer
    rw [hch]
    dsimp only
    rw [← hl, e1]
    dsimp only
    rw [p1]
    dsimp only
    rw [hpl, List.map_map, ← e2]
    rw [forE_map]
    rfl
  · have : ∀ x, (∃ y ∈ pl, True ∧ (x = f y.1 ∨ x = f y.2)) → x ∈ l := by
      rintro x ⟨y, hy, -, rfl | rfl⟩
      · exact b1 _ (hin y hy).1
      · exact b1 _ (hin y hy).2.1
    exact ⟨fun h => h.elim id fun h => .inr (this x h), .inl⟩
  · have : ∀ x, (∃ y ∈ pl, True ∧ (x = f y.1 ∨ x = f y.2)) → x ∈ l := by
      rintro x ⟨y, hy, -, rfl | rfl⟩
      · exact b1 _ (hin y hy).1
      · exact b1 _ (hin y hy).2.1
    exact ⟨fun h => h.elim id fun h => .inr ⟨h.1, this n h.2⟩, .inl⟩
  · intro t ht a b
    rcases h3 t a b with ⟨e, -⟩ | ⟨-, e⟩
    · exact absurd e ht
    · exact e
  · intro i hi j hj
    have hsame : ∀ y ∈ pl, Spec.SameLink dir (f y.1) (f y.2) (f i) (f j) → Spec.SameLink dir y.1 y.2 i j := by
      rintro y hy (⟨g1, g2⟩ | ⟨g0, g1, g2⟩)
      · exact .inl ⟨b2 _ hi _ (hin y hy).1 g1, b2 _ hj _ (hin y hy).2.1 g2⟩
      · exact .inr ⟨g0, b2 _ hi _ (hin y hy).2.1 g1, b2 _ hj _ (hin y hy).1 g2⟩
    have hsym : dir = false → c.reads [i] [j] = c.reads [j] [i] := fun e =>
      hc.sound.sym (by change c.directed = false; rw [hd, e]) _ ((hmem i).2 hi) _ ((hmem j).2 hj)
    rcases h3 s (f i) (f j) with ⟨-, y, hy, -, hl, e⟩ | ⟨hno, e⟩
    · rw [e]
      rcases hsame y hy hl with ⟨rfl, rfl⟩ | ⟨g0, rfl, rfl⟩
      · rfl
      · exact (hsym g0).symm
    · rw [e, hR]
      by_contra hne
      have hne' : c.reads [i] [j] ≠ c.view.noEdge := fun e' => hne (by rw [e']; exact hz.symm)
      refine hno ⟨rfl, ?_⟩
      cases hdir : dir with
      | true =>
        have := p4 (hd.trans hdir) _ ((hmem i).2 hi) _ ((hmem j).2 hj) hne'
        exact ⟨(i, j), (hmpl i j).1 this, trivial, .inl ⟨rfl, rfl⟩⟩
      | false =>
        rcases (p5 (hd.trans hdir)).1 _ ((hmem i).2 hi) _ ((hmem j).2 hj) hne' with h | h
        · exact ⟨(i, j), (hmpl i j).1 h, trivial, .inl ⟨rfl, rfl⟩⟩
        · exact ⟨(j, i), (hmpl j i).1 h, trivial, .inr ⟨rfl, rfl, rfl⟩⟩

end Pymnet
