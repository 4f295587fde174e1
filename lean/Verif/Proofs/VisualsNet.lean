import Verif.Proofs.Visuals
import Verif.Proofs.Looks
import Verif.Proofs.SubnetIter
import Verif.Props.Transforms2
import Mathlib.Data.List.Sort

/-! Proofs about the layout and the figure of a network. -/

namespace Pymnet

open Py

variable {α W : Type} [DecidableEq α] [DecidableEq W]

theorem View.Sound.head_mem {v : View α W} {R : List α → List α → W} (h : v.Sound R) {a : List α} (ha : a ∈ product v.slices) :
    ∃ x t, a = x :: t ∧ x ∈ v.slices.headD [] := by
  have hs := h.slen
  cases hsl : v.slices with
  | nil => rw [hsl] at hs; simp at hs
  | cons s0 rest =>
    rw [hsl, Py.mem_product] at ha
    cases ha with
    | cons h1 _ => exact ⟨_, _, rfl, h1⟩

/-- the nodes of the links -/
theorem View.Sound.ends {v : View α W} {R : List α → List α → W} (h : v.Sound R) : ∃ es ends, v.edges = .ok es ∧
    View.collect edgeEnds es = .ok ends ∧ ∀ e ∈ ends, e.1 ∈ v.slices.headD [] ∧ e.2 ∈ v.slices.headD [] := by
  obtain ⟨ps, h1, -, h3, -⟩ := h.edges
  have key : ∀ l : List (List α × List α), (∀ p ∈ l, p ∈ ps) → ∃ ends, View.collect edgeEnds (l.map (View.tuple R)) = .ok ends ∧
      ∀ e ∈ ends, e.1 ∈ v.slices.headD [] ∧ e.2 ∈ v.slices.headD [] := by
    intro l
    induction l with
    | nil => intro _; exact ⟨[], rfl, by simp⟩
    | cons p l ih =>
      intro hl
      obtain ⟨ends, e1, e2⟩ := ih fun q hq => hl q (by simp [hq])
      obtain ⟨ha, hb, -⟩ := h3 p (hl p (by simp))
      obtain ⟨x, t, hx, hx'⟩ := h.head_mem ha
      obtain ⟨y, s, hy, hy'⟩ := h.head_mem hb
      refine ⟨(x, y) :: ends, ?_, ?_⟩
      · simp only [List.map_cons, View.collect, View.tuple, hx, hy, interleave, edgeEnds]
        rw [e1]; rfl
      · simp only [List.mem_cons, forall_eq_or_imp]
        exact ⟨⟨hx', hy'⟩, e2⟩
  obtain ⟨ends, e1, e2⟩ := key ps fun _ h => h
  exact ⟨_, ends, h1, e1, e2⟩

variable {m : MNet α W} {d : Nat} {dir al : Bool} {S : Nat → α → Prop} {NL : List α → Prop} {R : List α → List α → W}

theorem Spec.Looks.headD {z : W} (h : Spec.Looks m d z dir al S NL R) : (m.slices.headD []).Nodup ∧ ∀ n, n ∈ m.slices.headD [] ↔ S 0 n := by
  have hs : m.slices.length = d + 1 := h.slices_length
  have hn : ∀ s ∈ m.slices, s.Nodup := h.inv.r.snodup
  cases hsl : m.slices with
  | nil => rw [hsl] at hs; simp at hs
  | cons s0 rest =>
    refine ⟨hn s0 (by rw [hsl]; simp), fun n => ?_⟩
    exact h.slice_mem (a := 0) (s := s0) (by rw [hsl]; rfl) n

theorem Spec.Looks.frNet [AddCommMonoid W] (h : Spec.Looks m d 0 dir al S NL R) (hd : 1 ≤ d) (hal : al = true → d = 1)
    (hon : al = false → ∀ n, S 0 n → ∃ s, NL (n :: s)) :
    ∃ net, m.frNet = .ok net ∧ net.Ok ∧ ∀ n, n ∈ net.nodes ↔ S 0 n := by
  have hasp : ¬ m.aspects < 1 := by rw [h.aspects_eq]; omega
  unfold MNet.frNet
  rw [if_neg hasp]
  cases al with
  | true =>
    have hd1 := hal rfl
    subst hd1
    rw [if_pos h.aligned_eq]
    obtain ⟨m', e, hm'⟩ := C26_aggregate h (asp := [1]) (by simp) (by simp)
    rw [e]
    have hm0 : m'.aspects = 0 := by rw [hm'.aspects_eq]; rfl
    obtain ⟨es, ends, e1, e2, e3⟩ := hm'.sound.ends
    simp only [hm0, ne_eq, not_true_eq_false, if_false, e1, e2]
    refine ⟨_, rfl, ⟨hm'.headD.1, e3, fun n hn => ?_⟩, fun n => ?_⟩
    · rw [← Dict.mem_keys]
      simpa [Dict.keys] using hn
    · refine (hm'.headD.2 n).trans ?_
      unfold Spec.AggNames
      constructor
      · have hS : ∀ a, NL a → (Spec.reduce [1] a)[0]? = some n → S 0 n := by
          intro a ha hx
          have hp := (h.mem_product a).1 (h.nl_product ha)
          have hl := h.nl_length ha
          match a, hl with
          | [x, y], _ =>
            refine hp.2 0 n ?_
            simpa [Spec.reduce, List.range_succ] using hx
        rintro (⟨-, h1⟩ | ⟨a, b, ha, hb, -, -, hx | hx⟩ | ⟨h1, -⟩)
        · exact h1
        · exact hS a ha hx
        · exact hS b hb hx
        · cases h1
      · intro h1; exact Or.inl ⟨rfl, h1⟩
  | false =>
    rw [if_neg (by rw [h.aligned_eq]; simp)]
    obtain ⟨es, ends, e1, e2, e3⟩ := h.sound.ends
    simp only [e1, e2]
    refine ⟨_, rfl, ⟨h.headD.1, e3, fun n hn => ?_⟩, h.headD.2⟩
    obtain ⟨s, hs⟩ := hon rfl n ((h.headD.2 n).1 hn)
    rw [← h.nodeLayers.2, MNet.mem_nodeLayers h.inv.r, if_neg (by rw [h.aligned_eq]; simp)] at hs
    obtain ⟨-, n', t, e, ho⟩ := hs
    cases e
    unfold MNet.onLayer at ho
    change (Dict.get m.nodeToLayers n).isSome = true
    cases hg : Dict.get m.nodeToLayers n with
    | none => rw [hg] at ho; simp at ho
    | some l => rfl

/-- the layout of a network -/
theorem Spec.Looks.fr_or {K : Type} [Field K] [LinearOrder K] [IsStrictOrderedRing K] [AddCommMonoid W] (h : Spec.Looks m d 0 dir al S NL R)
    (hd : 1 ≤ d) (hal : al = true → d = 1) (hon : al = false → ∀ n, S 0 n → ∃ s, NL (n :: s)) (hne : ∃ n, S 0 n) (sqrt : K → K)
    (nodeDist : Option K) (hdist : ∀ x, nodeDist = some x → 0 < x) (box : K × K) (nodeCoords : Dict α (K × K)) (rand : α → K × K)
    (fixed : List α) (n : Nat) :
    m.fr sqrt nodeDist box nodeCoords rand fixed n = .error .zeroDivisionError ∨
    ∃ r, m.fr sqrt nodeDist box nodeCoords rand fixed n = .ok r ∧ (Dict.keys r).Nodup ∧ (∀ n, n ∈ Dict.keys r ↔ S 0 n) ∧ Spec.FillsUnit r ∧
      Spec.KeepsShape (fun k => k ∈ fixed ∧ S 0 k) nodeCoords r := by
  obtain ⟨net, e, hok, hm⟩ := h.frNet hd hal hon
  obtain ⟨x, hx⟩ := hne
  have hne' : net.nodes ≠ [] := by
    intro h0
    have := (hm x).2 hx
    rw [h0] at this; simp at this
  simp only [MNet.fr, e]
  rcases frLayout_or hok hne' sqrt nodeDist hdist box nodeCoords rand fixed n with h | ⟨r, h1, h2, h3, h4⟩
  · exact Or.inl h
  · refine Or.inr ⟨r, h1, by rw [h2]; exact hok.nodup, fun n => by rw [h2]; exact hm n, h3, ?_⟩
    simpa only [hm] using h4

theorem keys_foldl_inr {K : Type} (l : List (List α)) (hn : l.Nodup) (f : List α → K × K) :
    Dict.keys (l.foldl (fun d nl => Dict.set d (Sum.inr nl : α ⊕ List α) (f nl)) []) = l.map Sum.inr := by
  have := keys_foldl_set (α := α ⊕ List α) (K := K) (l.map Sum.inr) (hn.map fun a b hab => by cases hab; rfl) (Sum.elim (fun _ => f []) f)
  rw [List.foldl_map] at this
  exact this

/-! ### The figure -/

section Figure

variable {K O : Type} [Field K] [LinearOrder K] [LinearOrder O]

theorem foldl_cons_eq {β : Type} (l acc : List β) : l.foldl (fun l x => x :: l) acc = l.reverse ++ acc := by
  induction l generalizing acc with
  | nil => rfl
  | cons a l ih => simp [ih]

/-- the node that `draw` makes for a node-layer -/
def figNodes (ncoords : Dict α (K × K)) (nlcoords : Dict (α ⊕ List α) (K × K)) (rand : List α → K × K) (size : List α → K)
    (nl : List α) : List (FigNode α K) :=
  match nl with
  | n :: _ => [⟨nl, (nodeXY ncoords nlcoords rand n nl).1, (nodeXY ncoords nlcoords rand n nl).2, size nl⟩]
  | [] => []

omit [Field K] [LinearOrder K] in
theorem drawFigure_ok {v : View α W} {R : List α → List α → W} (h : v.Sound R) (hasp : v.aspects = 1) {ls : List (LKey α)}
    (hls : ∀ nl ∈ product v.slices, layerOfNl nl ∈ ls) (order : LKey α → O) (ncoords : Dict α (K × K))
    (nlcoords : Dict (α ⊕ List α) (K × K)) (rand : List α → K × K) (size : List α → K) :
    ∃ f nls, drawFigure v ls order ncoords nlcoords rand size = .ok f ∧ v.nodeLayers = .ok nls ∧
      f.layers = (ls.insertionSort fun a b => order a ≤ order b).reverse ∧
      f.nodes = nls.flatMap (figNodes ncoords nlcoords rand size) ∧
      f.edges.Nodup ∧ ∀ a b, (a, b) ∈ f.edges ↔ (a ∈ product v.slices ∧ b ∈ product v.slices ∧ (R a b ≠ v.noEdge ∨ R b a ≠ v.noEdge)) := by
  obtain ⟨nls, n1, n2, n3, n4⟩ := h.nls
  have hmem : ∀ x, x ∈ (ls.insertionSort fun a b => order a ≤ order b).foldl (fun l x => x :: l) [] ↔ x ∈ ls := by
    intro x; rw [foldl_cons_eq]; simp [List.mem_insertionSort]
  have e1 : View.collect (drawNode ((ls.insertionSort fun a b => order a ≤ order b).foldl (fun l x => x :: l) []) ncoords nlcoords rand size) nls =
      .ok (nls.flatMap (figNodes ncoords nlcoords rand size)) := by
    refine View.collect_ok fun nl hnl => ?_
    have hl := h.length_of_mem (n3 nl hnl)
    have hL := hls nl (n3 nl hnl)
    rw [hasp] at hl
    match nl, hl, hL with
    | [n, l], _, hL =>
      have : LKey.el l ∈ (ls.insertionSort fun a b => order a ≤ order b).foldl (fun l x => x :: l) [] := (hmem _).2 hL
      simp only [drawNode, if_pos this, figNodes]
  have e2 : View.collect (drawEdges v nls) nls = .ok (nls.flatMap fun a => (v.neigh a).map fun b => (a, b)) := by
    refine View.collect_ok fun nl hnl => ?_
    obtain ⟨k1, k2, k3⟩ := h.neigh_spec (n3 nl hnl)
    simp only [drawEdges, k1]
    rw [View.collect_ok (g := fun b => [(nl, b)]), View.flatMap_single]
    intro b hb
    obtain ⟨hb1, hb2⟩ := (k3 b).1 hb
    have : b ∈ nls := by
      rcases hb2 with hb2 | hb2
      · exact (n4 nl (n3 nl hnl) b hb1 hb2).2
      · exact (n4 b hb1 nl (n3 nl hnl) hb2).1
    simp only [hnl, this, and_self, if_true]
  refine ⟨⟨(ls.insertionSort fun a b => order a ≤ order b).foldl (fun l x => x :: l) [], nls.flatMap (figNodes ncoords nlcoords rand size),
    nls.flatMap fun a => (v.neigh a).map fun b => (a, b)⟩, nls, by simp only [drawFigure, hasp, ne_eq, not_true_eq_false, if_false, n1, e1, e2], n1, ?_, rfl, ?_, fun a b => ?_⟩
  · simp only [foldl_cons_eq, List.append_nil]
  · exact View.nodup_flatMap_pairs n2 fun a ha => (h.neigh_spec (n3 a ha)).2.1
  · simp only [List.mem_flatMap, List.mem_map, Prod.mk.injEq]
    constructor
    · rintro ⟨x, hx, y, hy, rfl, rfl⟩
      exact ⟨n3 x hx, ((h.neigh_spec (n3 x hx)).2.2 y).1 hy⟩
    · rintro ⟨ha, hb, hR⟩
      refine ⟨a, ?_, b, ((h.neigh_spec ha).2.2 b).2 ⟨hb, hR⟩, rfl, rfl⟩
      rcases hR with hR | hR
      · exact (n4 a ha b hb hR).1
      · exact (n4 b hb a ha hR).2

/-- earlier in the order of the layers is higher -/
theorem z_lt_of_order {f : Figure α K} [IsStrictOrderedRing K] {ls : List (LKey α)} {order : LKey α → O}
    (hf : f.layers = (ls.insertionSort fun a b => order a ≤ order b).reverse) {L L' : LKey α} (hL : L ∈ ls) (hL' : L' ∈ ls)
    (ho : order L < order L') {gap : K} (hg : 0 < gap) : f.z gap L' < f.z gap L := by
  have hs : (f.layers).Pairwise fun a b => order b ≤ order a := by
    rw [hf, List.pairwise_reverse]
    have : IsTrans (LKey α) (fun a b => order a ≤ order b) := ⟨fun a b c h1 h2 => le_trans h1 h2⟩
    have : Std.Total (fun a b : LKey α => order a ≤ order b) := ⟨fun a b => le_total _ _⟩
    exact List.pairwise_insertionSort _ _
  have m1 : L ∈ f.layers := by rw [hf]; simpa [List.mem_insertionSort] using hL
  have m2 : L' ∈ f.layers := by rw [hf]; simpa [List.mem_insertionSort] using hL'
  have i1 := List.idxOf_lt_length_iff.2 m1
  have i2 := List.idxOf_lt_length_iff.2 m2
  have key : f.layers.idxOf L' < f.layers.idxOf L := by
    by_contra hcon
    rcases lt_or_eq_of_le (not_lt.1 hcon) with hlt | heq
    · have := List.pairwise_iff_getElem.1 hs _ _ i1 i2 hlt
      rw [List.getElem_idxOf, List.getElem_idxOf] at this
      exact absurd ho (not_lt.2 this)
    · have e1 := List.getElem_idxOf i1
      have e2 := List.getElem_idxOf i2
      simp only [heq] at e1
      rw [e1] at e2
      rw [e2] at ho
      exact lt_irrefl _ ho
  unfold Figure.z
  exact mul_lt_mul_of_pos_right (by exact_mod_cast key) hg

end Figure

/-! ### Normalisation of the figure -/

section FigNorm

variable {K : Type} [Field K] [LinearOrder K]

variable [IsStrictOrderedRing K]

theorem figure_normalize {f : Figure α K} {padding : K} (hp : 0 ≤ padding) (hs : ∀ n ∈ f.nodes, 0 ≤ n.size) :
    (∃ f' a b c d, f.normalize padding = .ok f' ∧ 0 < a ∧ 0 < c ∧ f'.layers = f.layers ∧ f'.edges = f.edges ∧
      f'.nodes = f.nodes.map (fun n => { n with x := a * n.x + b, y := c * n.y + d }) ∧
      ∀ n ∈ f'.nodes, (0 ≤ n.x ∧ n.x ≤ 1) ∧ 0 ≤ n.y ∧ n.y ≤ 1) ∨
    (f.normalize padding = .error .zeroDivisionError ∧ padding = 0 ∧ f.nodes ≠ [] ∧ (∀ n ∈ f.nodes, n.size = 0) ∧
      ((∀ n ∈ f.nodes, ∀ n' ∈ f.nodes, n.x = n'.x) ∨ ∀ n ∈ f.nodes, ∀ n' ∈ f.nodes, n.y = n'.y)) := by
  unfold Figure.normalize
  by_cases hne : f.nodes = []
  · left
    refine ⟨f, 1, 0, 1, 0, by simp [hne], one_pos, one_pos, rfl, rfl, by simp [hne], by simp [hne]⟩
  obtain ⟨lox, e1, m1, b1⟩ := updMin_list (l := f.nodes.map fun n => n.x - n.size / 2) (by simpa using hne)
  obtain ⟨hix, e2, m2, b2⟩ := updMax_list (l := f.nodes.map fun n => n.x + n.size / 2) (by simpa using hne)
  obtain ⟨loy, e3, m3, b3⟩ := updMin_list (l := f.nodes.map fun n => n.y - n.size / 2) (by simpa using hne)
  obtain ⟨hiy, e4, m4, b4⟩ := updMax_list (l := f.nodes.map fun n => n.y + n.size / 2) (by simpa using hne)
  rw [List.foldl_map] at e1 e2 e3 e4
  rw [e1, e2, e3, e4]
  simp only
  simp only [List.mem_map, forall_exists_index, and_imp, forall_apply_eq_imp_iff₂] at b1 b2 b3 b4
  have flat : ∀ (g : FigNode α K → K) (lo hi : K), (∀ n ∈ f.nodes, lo ≤ g n - n.size / 2) → (∀ n ∈ f.nodes, g n + n.size / 2 ≤ hi) →
      hi - lo + 2 * padding = 0 → padding = 0 ∧ (∀ n ∈ f.nodes, n.size = 0) ∧ ∀ n ∈ f.nodes, ∀ n' ∈ f.nodes, g n = g n' := by
    intro g lo hi h1 h2 h0
    have hp0 : padding = 0 := by
      obtain ⟨n, hn⟩ := List.exists_mem_of_ne_nil _ hne
      have := h1 n hn; have := h2 n hn; have := hs n hn
      linarith
    refine ⟨hp0, fun n hn => ?_, fun n hn n' hn' => ?_⟩
    · have := h1 n hn; have := h2 n hn; have := hs n hn
      linarith
    · have := h1 n hn; have := h2 n hn; have := hs n hn
      have := h1 n' hn'; have := h2 n' hn'; have := hs n' hn'
      linarith
  have pos : ∀ (g : FigNode α K → K) (lo hi : K), (∀ n ∈ f.nodes, lo ≤ g n - n.size / 2) → (∀ n ∈ f.nodes, g n + n.size / 2 ≤ hi) →
      hi - lo + 2 * padding ≠ 0 → 0 < hi - lo + 2 * padding := by
    intro g lo hi h1 h2 h0
    obtain ⟨n, hn⟩ := List.exists_mem_of_ne_nil _ hne
    have := h1 n hn; have := h2 n hn; have := hs n hn
    exact lt_of_le_of_ne (by linarith) (Ne.symm h0)
  by_cases hx : hix - lox + 2 * padding = 0
  · right
    rw [if_pos hx]
    obtain ⟨q1, q2, q3⟩ := flat (fun n => n.x) lox hix b1 b2 hx
    exact ⟨rfl, q1, hne, q2, Or.inl q3⟩
  · rw [if_neg hx]
    by_cases hy : hiy - loy + 2 * padding = 0
    · right
      rw [if_pos hy]
      obtain ⟨q1, q2, q3⟩ := flat (fun n => n.y) loy hiy b3 b4 hy
      exact ⟨rfl, q1, hne, q2, Or.inr q3⟩
    · left
      rw [if_neg hy]
      have px := pos (fun n => n.x) lox hix b1 b2 hx
      have py := pos (fun n => n.y) loy hiy b3 b4 hy
      refine ⟨_, 1 / (hix - lox + 2 * padding), (padding - lox) / (hix - lox + 2 * padding), 1 / (hiy - loy + 2 * padding),
        (padding - loy) / (hiy - loy + 2 * padding), rfl, by positivity, by positivity, rfl, rfl, ?_, ?_⟩
      · refine List.map_congr_left fun n _ => ?_
        congr 1 <;> ring
      · intro n hn
        obtain ⟨n0, hn0, rfl⟩ := List.mem_map.1 hn
        have := hs n0 hn0
        have := b1 n0 hn0; have := b2 n0 hn0; have := b3 n0 hn0; have := b4 n0 hn0
        exact ⟨⟨div_nonneg (by linarith) px.le, (div_le_one px).2 (by linarith)⟩, div_nonneg (by linarith) py.le, (div_le_one py).2 (by linarith)⟩

end FigNorm

end Pymnet
