import Verif.Proofs.EsuPath
import Verif.Proofs.Subnet
import Verif.Proofs.Usage

/-! `sample_multilayer_subgraphs_esu`: the numbering, the copy of the network and the loop over the node-layers. -/

set_option linter.unusedSectionVars false
set_option linter.unusedSimpArgs false

namespace Pymnet

open Py

variable {α W β : Type} [DecidableEq α] [DecidableEq W] [DecidableEq β]

/-! ### The numbering -/

/-- Node-layers with the same key are numbered consecutively. -/
def Grouped {κ : Type} (key : List α → κ) (nls : List (List α)) : Prop :=
  ∀ a ∈ nls, ∀ b ∈ nls, ∀ b' ∈ nls, key b = key b' → key a ≠ key b → nls.idxOf a < nls.idxOf b → nls.idxOf a < nls.idxOf b'

theorem grouped_flatMap {κ ι : Type} (key : List α → κ) (kf : ι → κ) (ks : List ι) (hk : (ks.map kf).Nodup) (f : ι → List (List α))
    (hf : ∀ k ∈ ks, ∀ x ∈ f k, key x = kf k) : Grouped key (ks.flatMap f) := by
  induction ks with
  | nil => intro a ha; simp at ha
  | cons k ks ih =>
    rw [List.map_cons, List.nodup_cons] at hk
    have ih := ih hk.2 (fun k' hk' => hf k' (List.mem_cons_of_mem _ hk'))
    have rest : ∀ x, x ∈ ks.flatMap f → key x ≠ kf k := by
      intro x hx
      obtain ⟨k', hk', hx'⟩ := List.mem_flatMap.1 hx
      rw [hf k' (List.mem_cons_of_mem _ hk') x hx']
      intro he
      exact hk.1 (he ▸ List.mem_map_of_mem hk')
    have fst : ∀ x, x ∈ f k → key x = kf k := hf k (by simp)
    rw [List.flatMap_cons]
    intro a ha b hb b' hb' hbb hab hlt
    have inR : ∀ x, x ∈ f k ++ ks.flatMap f → x ∉ f k → x ∈ ks.flatMap f := fun x hx h => (List.mem_append.1 hx).resolve_left h
    by_cases hA : a ∈ f k
    · have hkb' : b' ∉ f k := fun h => hab ((fst a hA).trans ((fst b' h).symm.trans hbb.symm))
      rw [List.idxOf_append_of_mem hA, List.idxOf_append_of_notMem hkb']
      have := List.idxOf_lt_length_iff.2 hA
      omega
    · rw [List.idxOf_append_of_notMem hA] at hlt ⊢
      have hB : b ∉ f k := by
        intro h
        rw [List.idxOf_append_of_mem h] at hlt
        have := List.idxOf_lt_length_iff.2 h
        omega
      have hB' : b' ∉ f k := by
        intro h
        exact rest b (inR b hb hB) (hbb.trans (fst b' h))
      rw [List.idxOf_append_of_notMem hB] at hlt
      rw [List.idxOf_append_of_notMem hB']
      have := ih a (inR a ha hA) b (inR b hb hB) b' (inR b' hb' hB') hbb hab (by omega)
      omega

/-- The node-layers are numbered node by node or layer by layer. -/
theorem nodeLayers_grouped {m : MNet α W} {z : W} {al : Bool} {S : Nat → α → Prop} {NL : List α → Prop} {R : List α → List α → W}
    (h : Spec.Looks m 1 z false al S NL R) :
    Grouped (fun x : List α => x[0]?) m.nodeLayers ∨ Grouped (fun x : List α => x[1]?) m.nodeLayers := by
  have hsl : m.slices.length = 2 := by rw [h.inv.r.slen, h.aspects_eq]
  obtain ⟨A, B, hs⟩ := List.length_eq_two.1 hsl
  unfold MNet.nodeLayers
  cases hf : m.fic with
  | true =>
    left
    rw [if_pos rfl, hs, product]
    refine grouped_flatMap _ (fun x => some x) A ?_ _ ?_
    · exact (h.inv.r.snodup A (by simp [hs])).map (Option.some_injective α)
    · intro k _ x hx
      obtain ⟨t, -, rfl⟩ := List.mem_map.1 hx
      rfl
  | false =>
    right
    rw [if_neg (by simp)]
    unfold MNet.iterLayers
    rw [if_neg (by rw [h.aspects_eq]; omega), if_pos h.aspects_eq, hs]
    simp only [List.getD_cons_succ, List.getD_cons_zero]
    rw [List.flatMap_map]
    refine grouped_flatMap _ (fun x => some x) B ?_ _ ?_
    · exact (h.inv.r.snodup B (by simp [hs])).map (Option.some_injective α)
    · intro k _ x hx
      obtain ⟨t, -, rfl⟩ := List.mem_map.1 hx
      rfl

/-- The numbering provides what the search needs. -/
theorem Ctx.exists_order {c : Ctx α W} (hlen : ∀ x ∈ c.nls, x.length = 2) (hv : c.v ∈ c.nls)
    (hg : Grouped (fun x : List α => x[0]?) c.nls ∨ Grouped (fun x : List α => x[1]?) c.nls) :
    ∃ v0 l0 PN PL, c.Order v0 l0 PN PL ∧ (∀ x, PN x → ∃ l, [x, l] ∈ c.nls) ∧ ∀ x, PL x → ∃ n, [n, x] ∈ c.nls := by
  obtain ⟨v0, l0, hvv⟩ := List.length_eq_two.1 (hlen c.v hv)
  have hv' := hv
  rw [hvv] at hv'
  have low0 : c.NotLow [v0, l0] := fun _ => by rw [← hvv]
  rcases hg with hg | hg
  · refine ⟨v0, l0, fun n => (∃ l, [n, l] ∈ c.nls) ∧ (n = v0 ∨ ∀ l, c.NotLow [n, l]), fun l => (∃ n, [n, l] ∈ c.nls) ∧ c.NotLow [v0, l],
      ⟨hvv, hv, ⟨⟨l0, hv'⟩, Or.inl rfl⟩, ⟨⟨v0, hv'⟩, low0⟩, ?_, ?_, ?_⟩, fun x h => h.1, fun x h => h.1⟩
    · rintro n l ⟨-, rfl | h⟩ ⟨-, h'⟩
      · exact h'
      · exact h l
    · intro n l h1 h2 h3
      refine ⟨⟨l, h1⟩, ?_⟩
      by_cases hn : n = v0
      · exact Or.inl hn
      · refine Or.inr fun l' hl' => Nat.le_of_lt ?_
        exact hg c.v hv [n, l] h1 [n, l'] hl' rfl (by rw [hvv]; simpa using fun h => hn h.symm) h2
    · intro n l h1 h2 h3
      exact ⟨⟨n, h1⟩, h3⟩
  · refine ⟨v0, l0, fun n => (∃ l, [n, l] ∈ c.nls) ∧ c.NotLow [n, l0], fun l => (∃ n, [n, l] ∈ c.nls) ∧ (l = l0 ∨ ∀ n, c.NotLow [n, l]),
      ⟨hvv, hv, ⟨⟨l0, hv'⟩, low0⟩, ⟨⟨v0, hv'⟩, Or.inl rfl⟩, ?_, ?_, ?_⟩, fun x h => h.1, fun x h => h.1⟩
    · rintro n l ⟨-, h'⟩ ⟨-, rfl | h⟩
      · exact h'
      · exact h n
    · intro n l h1 h2 h3
      exact ⟨⟨l, h1⟩, h3⟩
    · intro n l h1 h2 h3
      refine ⟨⟨n, h1⟩, ?_⟩
      by_cases hn : l = l0
      · exact Or.inl hn
      · refine Or.inr fun l' hl' => Nat.le_of_lt ?_
        exact hg c.v hv [n, l] h1 [l', l] hl' rfl (by rw [hvv]; simpa using fun h => hn h.symm) h2

/-! ### The copy of the network -/

section

variable {m : MNet α W} {z : W} {al : Bool} {S : Nat → α → Prop} {NL : List α → Prop} {R : List α → List α → W}

theorem mem_product_all {sl : List (List α)} (h : sl.length = 2) (a : List α) :
    a ∈ product (selSets sl [some (sl.headD []), some (sl.getD 1 [])]) ↔ a ∈ product sl := by
  obtain ⟨A, B, rfl⟩ := List.length_eq_two.1 h
  change a ∈ product [toSet A, toSet B] ↔ _
  rw [mem_product2, mem_product2]
  unfold Spec.Inside
  simp only [mem_toSet]

theorem copy_looks (h : Spec.Looks m 1 z false al S NL R) :
    ∃ m', m.view.subnetInto [some (m.slices.headD []), some (m.slices.getD 1 [])] false (MNet.init 1 z false false) = .ok m' ∧
      Spec.Looks m' 1 z false false (fun k x => if al = false ∧ k = 0 then ∃ nl, NL nl ∧ nl[0]? = some x else S k x) NL R := by
  have hsl : m.slices.length = 2 := by rw [h.inv.r.slen, h.aspects_eq]
  have hP := mem_product_all hsl
  obtain ⟨m', e, hb⟩ := subnetInto_spec h.inv false (fun _ => rfl) (fun _ => by rw [h.aspects_eq])
    (sel := [some (m.slices.headD []), some (m.slices.getD 1 [])]) (by rw [h.aspects_eq]; rfl) false
  rw [h.aspects_eq, h.noEdge_eq, h.directed_eq, h.aligned_eq] at hb
  rw [h.aspects_eq, h.noEdge_eq, h.directed_eq] at e
  have hnl : ∀ nl, (nl ∈ m.nodeLayers ∧ nl ∈ product (selSets m.slices [some (m.slices.headD []), some (m.slices.getD 1 [])])) ↔ NL nl := by
    intro nl
    rw [h.nodeLayers.2, hP]
    exact ⟨And.left, fun hn => ⟨hn, h.nl_product hn⟩⟩
  refine ⟨m', e, (hb.looks (by omega) ?_).congr ?_ ?_ ?_⟩
  · intro _ nl hn
    exact h.nl_length ((hnl nl).1 hn)
  · intro k hk x
    by_cases hc : al = false ∧ k = 0
    · rw [if_pos hc, if_pos hc]
      refine exists_congr fun nl => ?_
      rw [← and_assoc, hnl]
    · rw [if_neg hc, if_neg hc, ← h.inSlice hk]
      obtain ⟨A, B, hs⟩ := List.length_eq_two.1 hsl
      unfold selName MNet.inSlice
      rw [hs]
      match k, hk with
      | 0, _ => simp
      | 1, _ => simp
  · intro nl
    rw [if_neg (by simp)]
    exact hnl nl
  · intro u v hu hv
    rw [h.reads_eq hu hv]
    by_cases hR : R u v = z
    · rw [hR]; simp
    · have := h.linked hu hv hR
      rw [if_pos ⟨rfl, (hP u).2 this.1.1, (hP v).2 this.2.1⟩]

/-- Neighbours. -/
theorem mem_neighbors (h : Spec.Looks m 1 z false al S NL R) {a b : List α} :
    b ∈ m.iterTotal a none ↔ a.length = 2 ∧ b.length = 2 ∧ R a b ≠ z := by
  have key : ∀ a b, (m.lk a b).isSome = true ↔ a.length = 2 ∧ b.length = 2 ∧ R a b ≠ z := by
    intro a b
    rw [← MNet.reads_ne_noEdge h.inv.l]
    constructor
    · intro hne
      have hsome := (MNet.reads_ne_noEdge h.inv.l ..).1 hne
      obtain ⟨w, hw⟩ := Option.isSome_iff_exists.1 hsome
      have ra := (MNet.reg_iff h.inv.r a).1 (h.inv.reg a b w hw).1
      have rb := (MNet.reg_iff h.inv.r b).1 (h.inv.reg a b w hw).2
      have la : a.length = 2 := (h.sound.length_of_mem ra).trans (congrArg (· + 1) h.aspects_eq)
      have lb : b.length = 2 := (h.sound.length_of_mem rb).trans (congrArg (· + 1) h.aspects_eq)
      exact ⟨la, lb, by rw [← h.reads_eq la lb, ← h.noEdge_eq]; exact hne⟩
    · rintro ⟨la, lb, hne⟩
      rw [h.reads_eq la lb, h.noEdge_eq]; exact hne
  rw [MNet.mem_iterTotal h.inv.l, key, key]
  constructor
  · rintro ⟨h1 | ⟨lb, la, h1⟩, -⟩
    · exact h1
    · exact ⟨la, lb, by rw [h.sym la lb]; exact h1⟩
  · intro h1
    exact ⟨Or.inl h1, by simp [dimsOk]⟩

theorem removeLinks_spec (h : Spec.Looks m 1 z false al S NL R) {v : List α} (hv : NL v) (hself : R v v = z) :
    ∃ m', removeLinks z m v = .ok m' ∧ Spec.Looks m' 1 z false al S NL (fun a b => if a = v ∨ b = v then z else R a b) := by
  have lv := h.nl_length hv
  have hb0 : Built m 1 z false al m.inSlice (fun nl => nl ∈ m.nodeLayers) m.reads := by
    refine ⟨h.reachable, fun _ _ => Iff.rfl, fun _ hal n t ht => ?_, fun _ _ => rfl⟩
    rw [MNet.mem_nodeLayers h.inv.r, h.aligned_eq, hal, if_neg (by simp), h.aspects_eq]
    constructor
    · intro ho; exact ⟨by simp [ht], n, t, rfl, ho⟩
    · rintro ⟨-, n', t', he, ho⟩
      injection he with h1 h2
      subst h1 h2; exact ho
  obtain ⟨m', R', e, hb, hR⟩ := hb0.setItems (m.iterTotal v none) (fun _ => True) (fun y => y) (fun _ => v) (fun _ => z)
    (g := fun (m : MNet α W) b => (m.nodeSet b v z).toExcept) (by
      intro m1 y hy _
      have hy := (mem_neighbors h).1 hy
      refine ⟨interleave y v, ⟨hy.2.1, lv, Or.inl (interleave_eq_link y v)⟩, ?_⟩
      have hyl : y.length = v.length := hy.2.1.trans hy.1.symm
      simp only [MNet.nodeSet, nodesToLink, if_pos hyl]) (by simp) (by
      intro y hy _ _ he
      have hy := (mem_neighbors h).1 hy
      rw [he] at hy
      exact absurd hself hy.2.2)
  refine ⟨m', e, (hb.looks (by omega) ?_).congr ?_ ?_ ?_⟩
  · rintro - nl (hn | ⟨y, hy, -, rfl | rfl⟩)
    · exact h.nl_length ((h.nodeLayers.2 nl).1 hn)
    · exact ((mem_neighbors h).1 hy).2.1
    · exact lv
  · intro k hk x
    rw [← h.inSlice hk]
    constructor
    · rintro (hx | ⟨y, hy, -, hx | hx⟩)
      · exact hx
      · have hy := (mem_neighbors h).1 hy
        have := ((h.mem_product y).1 (h.linked hy.1 hy.2.1 hy.2.2).2.1).2 k x hx
        exact (h.inSlice hk x).2 this
      · have := ((h.mem_product v).1 (h.nl_product hv)).2 k x hx
        exact (h.inSlice hk x).2 this
    · exact Or.inl
  · intro nl
    have hold : ∀ nl, (nl ∈ m.nodeLayers ∨ ∃ y ∈ m.iterTotal v none, True ∧ (nl = y ∨ nl = v)) ↔ NL nl := by
      intro nl
      rw [h.nodeLayers.2]
      constructor
      · rintro (hn | ⟨y, hy, -, rfl | rfl⟩)
        · exact hn
        · have hy := (mem_neighbors h).1 hy
          exact (h.linked hy.1 hy.2.1 hy.2.2).2.2
        · exact hv
      · exact Or.inl
    cases al with
    | false => rw [if_neg (by simp)]; exact hold nl
    | true =>
      rw [if_pos rfl, h.nl_aligned]
      unfold Spec.AllNodeLayers
      refine and_congr_right fun hl => forall_congr' fun i => forall_congr' fun x => imp_congr_right fun hx => ?_
      have hi : i ≤ 1 := by have := (List.getElem?_eq_some_iff.1 hx).1; omega
      rw [← h.inSlice hi]
      constructor
      · rintro (hx | ⟨y, hy, -, hx | hx⟩)
        · exact hx
        · have hy := (mem_neighbors h).1 hy
          have := ((h.mem_product y).1 (h.linked hy.1 hy.2.1 hy.2.2).2.1).2 i x hx
          exact (h.inSlice hi x).2 this
        · have := ((h.mem_product v).1 (h.nl_product hv)).2 i x hx
          exact (h.inSlice hi x).2 this
      · exact Or.inl
  · intro a b ha hb'
    rcases hR a b with ⟨y, hy, -, h1, h2⟩ | ⟨h1, h2⟩
    · rw [h2, if_pos]
      rcases h1 with ⟨-, h1⟩ | ⟨-, h1, -⟩
      · exact Or.inr h1
      · exact Or.inl h1
    · rw [h2, h.reads_eq ha hb']
      by_cases hc : a = v ∨ b = v
      · rw [if_pos hc]
        by_contra hne
        rcases hc with rfl | rfl
        · exact h1 b ((mem_neighbors h).2 ⟨ha, hb', hne⟩) trivial (Or.inr ⟨rfl, rfl, rfl⟩)
        · exact h1 a ((mem_neighbors h).2 ⟨hb', ha, by rw [h.sym hb' ha]; exact hne⟩) trivial (Or.inl ⟨rfl, rfl⟩)
      · rw [if_neg hc]

end

/-! ### The loop -/

/-- The links that are left when those of `pre` have been removed. -/
def cutLinks (copy : Bool) (z : W) (pre : List (List α)) (R : List α → List α → W) (a b : List α) : W :=
  if copy = true ∧ (a ∈ pre ∨ b ∈ pre) then z else R a b

theorem exists_exit {γ : Type} {r : γ → γ → Prop} {P : γ → Prop} {a b : γ} (h : Relation.ReflTransGen r a b) (ha : P a) (hb : ¬ P b) :
    ∃ x y, r x y ∧ P x ∧ ¬ P y := by
  induction h with
  | refl => exact absurd ha hb
  | tail _ h2 ih =>
    rename_i c d _
    by_cases hc : P c
    · exact ⟨c, d, h2, hc, hb⟩
    · exact ih hc

section

variable {z : W} {al copy : Bool} {S : Nat → α → Prop} {NL : List α → Prop} {R : List α → List α → W} {s : Search α W} {n k : Nat}
  {G : (List α → Prop) → (List α → List α → W) → List α → List α → Prop} {nls : List (List α)}

/-- The lowest node-layer of a subgraph. -/
def Lowest (nls : List (List α)) (r : List α × List α) (v : List α) : Prop :=
  v ∈ nls ∧ Spec.Inside r.1 r.2 v ∧ ∀ b ∈ nls, Spec.Inside r.1 r.2 b → nls.idxOf v ≤ nls.idxOf b

theorem Lowest.unique {r r' : List α × List α} {v v' : List α} (hs : Spec.SameSubgraph r r') (h : Lowest nls r v) (h' : Lowest nls r' v') :
    v = v' := by
  have h1 := h.2.2 v' h'.1 (inside_mono (fun x => hs.1.symm.subset (a := x)) (fun x => hs.2.symm.subset (a := x)) h'.2.1)
  have h2 := h'.2.2 v h.1 (inside_mono (fun x => hs.1.subset (a := x)) (fun x => hs.2.subset (a := x)) h.2.1)
  exact (List.idxOf_inj h.1).1 (Nat.le_antisymm h1 h2)

/-- A proper subgraph has a lowest node-layer. -/
theorem exists_lowest (hm : ∀ nl, nl ∈ nls ↔ NL nl) {A B : List α} (hp : ∃ x, NL x ∧ Spec.Inside A B x) : ∃ v, Lowest nls (A, B) v := by
  classical
  have : ∃ i, ∃ v, v ∈ nls ∧ Spec.Inside A B v ∧ nls.idxOf v = i := by
    obtain ⟨x, h1, h2⟩ := hp
    exact ⟨_, x, (hm x).2 h1, h2, rfl⟩
  obtain ⟨v, h1, h2, h3⟩ := Nat.find_spec this
  refine ⟨v, h1, h2, fun b hb hi => ?_⟩
  rw [h3]
  exact Nat.find_min' this ⟨b, hb, hi, rfl⟩

/-- What is fixed during the loop. -/
structure Fixed (copy : Bool) (z : W) (NL : List α → Prop) (R : List α → List α → W) (nls : List (List α)) : Prop where
  nodup : nls.Nodup
  mem : ∀ nl, nl ∈ nls ↔ NL nl
  grouped : Grouped (fun x : List α => x[0]?) nls ∨ Grouped (fun x : List α => x[1]?) nls
  len : ∀ nl, NL nl → nl.length = 2
  noSelf : copy = true → ∀ v, NL v → R v v = z

theorem Fixed.not_pre (hf : Fixed copy z NL R nls) {pre t : List (List α)} {v : List α} (hs : nls = pre ++ v :: t) {r : List α × List α}
    (hl : ∀ b ∈ nls, Spec.Inside r.1 r.2 b → nls.idxOf v ≤ nls.idxOf b) {u : List α} (hu : NL u) (hi : Spec.Inside r.1 r.2 u) : u ∉ pre := by
  intro hp
  have h1 := hl u ((hf.mem u).2 hu) hi
  have hd := hf.nodup
  rw [hs] at h1 hd
  have hv : v ∉ pre := fun h => (List.nodup_append.1 hd).2.2 v h v (by simp) rfl
  rw [List.idxOf_append_of_mem hp, List.idxOf_append_of_notMem hv] at h1
  have := List.idxOf_lt_length_iff.2 hp
  omega

theorem Fixed.local (hf : Fixed copy z NL R nls) (hd : Decides s z n k G) {pre t : List (List α)} {v : List α} (hs : nls = pre ++ v :: t)
    {r : List α × List α} (hl : ∀ b ∈ nls, Spec.Inside r.1 r.2 b → nls.idxOf v ≤ nls.idxOf b) :
    G NL (cutLinks copy z pre R) r.1 r.2 ↔ G NL R r.1 r.2 := by
  have key : ∀ u w, NL u → NL w → Spec.Inside r.1 r.2 u → Spec.Inside r.1 r.2 w → cutLinks copy z pre R u w = R u w := by
    intro u w h1 h2 h3 h4
    unfold cutLinks
    rw [if_neg]
    rintro ⟨-, h | h⟩
    · exact hf.not_pre hs hl h1 h3 h
    · exact hf.not_pre hs hl h2 h4 h
  exact ⟨hd.near _ _ _ _ _ key, hd.near _ _ _ _ _ fun u w h1 h2 h3 h4 => (key u w h1 h2 h3 h4).symm⟩

/-- The search from one node-layer. -/
theorem root_step (hd : Decides s z n k G) (hn : 1 ≤ n) (hk : 1 ≤ k) (hf : Fixed copy z NL R nls) {pre t : List (List α)} {v : List α}
    (hs : nls = pre ++ v :: t) {m : MNet α W} (h : Spec.Looks m 1 z false al S NL (cutLinks copy z pre R)) (pick : List α → Nat) :
    (∀ coin, ∃ res, (Ctx.mk m (s.check m) nls v s.rn s.rl coin pick).root = .ok res ∧
      res.Pairwise (fun a b => ¬ Spec.SameSubgraph a b) ∧
      ∀ r ∈ res, r.1.Nodup ∧ r.2.Nodup ∧ r.1.length = n ∧ r.2.length = k ∧ Lowest nls r v ∧ G NL R r.1 r.2 ∧
        (∀ x ∈ r.1, ∃ l, NL [x, l]) ∧ ∀ x ∈ r.2, ∃ n, NL [n, x]) ∧
    ∀ A B : List α, A.Nodup → B.Nodup → A.length = n → B.length = k → Lowest nls (A, B) v → Spec.Proper NL (fun u v => R u v ≠ z) A B →
      ∃ path : List (List Nat), path.map List.length = List.range (n + k - 1) ∧
        ∀ coin res, (Ctx.mk m (s.check m) nls v s.rn s.rl coin pick).root = .ok res →
          (Ctx.Found res A B ↔ (∀ p ∈ path, coin v p = true) ∧ G NL R A B) := by
  have hv : v ∈ nls := by rw [hs]; simp
  have hlen : ∀ x ∈ nls, x.length = 2 := fun x hx => hf.len x ((hf.mem x).1 hx)
  have wf : ∀ coin, (Ctx.mk m (s.check m) nls v s.rn s.rl coin pick).Wf := by
    intro coin
    refine ⟨hlen, fun a b hb => ?_⟩
    have hb := (mem_neighbors h).1 hb
    exact (hf.mem b).2 (h.linked hb.1 hb.2.1 hb.2.2).2.2
  have ck : ∀ coin, (Ctx.mk m (s.check m) nls v s.rn s.rl coin pick).Checks n k (G NL (cutLinks copy z pre R)) :=
    fun coin N L h1 h2 h3 h4 => hd.check h N L h1 h2 h3 h4
  constructor
  · intro coin
    obtain ⟨v0, l0, PN, PL, ho, pn, pl⟩ := Ctx.exists_order (c := Ctx.mk m (s.check m) nls v s.rn s.rl coin pick) hlen hv hf.grouped
    obtain ⟨res, e, p, g⟩ := Ctx.root_finds (wf coin) ho hd.rn hd.rl hn hk (ck coin)
    refine ⟨res, e, p, fun r hr => ?_⟩
    obtain ⟨g1, g2, g3, g4, g5, g6, g7, g8, g9, g10⟩ := g r hr
    have hlow : ∀ b ∈ nls, Spec.Inside r.1 r.2 b → nls.idxOf v ≤ nls.idxOf b := fun b hb hi => g7 b hi hb
    have hveq : v = [v0, l0] := ho.v_eq
    refine ⟨g1, g2, g3, g4, ⟨hv, by rw [hveq]; exact inside_pair.2 ⟨g5, g6⟩, hlow⟩, (hf.local hd hs hlow).1 g8, fun x hx => ?_, fun x hx => ?_⟩
    · obtain ⟨l, hl⟩ := pn x (g9 x hx)
      exact ⟨l, (hf.mem _).1 hl⟩
    · obtain ⟨l, hl⟩ := pl x (g10 x hx)
      exact ⟨l, (hf.mem _).1 hl⟩
  · intro A B dA dB lA lB hlow hp
    let c : Ctx α W := Ctx.mk m (s.check m) nls v s.rn s.rl (fun _ _ => true) pick
    obtain ⟨v0, l0, PN, PL, ho, pn, pl⟩ := Ctx.exists_order (c := c) hlen hv hf.grouped
    have hveq : v = [v0, l0] := ho.v_eq
    have hin := hlow.2.1
    rw [hveq] at hin
    have hin := inside_pair.1 hin
    have ht : c.Target v0 l0 n k A B := by
      refine ⟨dA, dB, lA, lB, hin.1, hin.2, fun b hb hm => hlow.2.2 b hm hb, ?_⟩
      intro N L n0 ll0 sN sL hnot
      -- a node-layer outside
      have hout : ∃ u, NL u ∧ Spec.Inside A B u ∧ ¬ Spec.Inside N L u := by
        rw [not_and_or] at hnot
        rcases hnot with hnot | hnot
        · simp only [not_forall] at hnot
          obtain ⟨x, hx, hxN⟩ := hnot
          obtain ⟨l, hl, hnl⟩ := hp.2.2 x hx
          exact ⟨[x, l], hnl, inside_pair.2 ⟨hx, hl⟩, fun hi => hxN (inside_pair.1 hi).1⟩
        · simp only [not_forall] at hnot
          obtain ⟨x, hx, hxN⟩ := hnot
          obtain ⟨l, hl, hnl⟩ := hp.2.1 x hx
          exact ⟨[l, x], hnl, inside_pair.2 ⟨hl, hx⟩, fun hi => hxN (inside_pair.1 hi).2⟩
      obtain ⟨u, u1, u2, u3⟩ := hout
      have hpath := hp.1.2 v u ⟨(hf.mem v).1 hv, hlow.2.1⟩ ⟨u1, u2⟩
      obtain ⟨x, y, ⟨⟨x1, x2⟩, ⟨y1, y2⟩, hE⟩, px, py⟩ := exists_exit (P := fun w => Spec.Inside N L w) hpath
        (by rw [hveq]; exact inside_pair.2 ⟨n0, ll0⟩) u3
      refine ⟨x, y, px, (hf.mem x).2 x1, (mem_neighbors h).2 ⟨hf.len x x1, hf.len y y1, ?_⟩, y2, py⟩
      unfold cutLinks
      rw [if_neg]
      · exact hE
      · rintro ⟨-, hc | hc⟩
        · exact hf.not_pre hs (r := (A, B)) hlow.2.2 x1 x2 hc
        · exact hf.not_pre hs (r := (A, B)) hlow.2.2 y1 y2 hc
    obtain ⟨path, p1, p2⟩ := Ctx.root_path (wf _) ho hd.rn hd.rl hn hk (ck _) (fun N N' L L' => hd.perm _ _ N N' L L') ht
    refine ⟨path, p1, fun coin res hres => ?_⟩
    rw [← hf.local hd hs (r := (A, B)) hlow.2.2]
    exact p2 coin res hres

/-- The links of the node-layer are removed if the network is a copy. -/
theorem next_step (hf : Fixed copy z NL R nls) {pre t : List (List α)} {v : List α}
    (hs : nls = pre ++ v :: t) {m : MNet α W} (h : Spec.Looks m 1 z false al S NL (cutLinks copy z pre R)) :
    ∃ m', (if copy = true then removeLinks z m v else .ok m) = .ok m' ∧ Spec.Looks m' 1 z false al S NL (cutLinks copy z (pre ++ [v]) R) := by
  cases copy with
  | false => exact ⟨m, rfl, h.congr (fun _ _ _ => Iff.rfl) (fun _ => Iff.rfl) (fun _ _ _ _ => by simp [cutLinks])⟩
  | true =>
    have hv : NL v := (hf.mem v).1 (by rw [hs]; simp)
    obtain ⟨m', e, h'⟩ := removeLinks_spec h hv (by
      unfold cutLinks
      split
      · rfl
      · exact hf.noSelf rfl v hv)
    refine ⟨m', by rw [if_pos rfl]; exact e, h'.congr (fun _ _ _ => Iff.rfl) (fun _ => Iff.rfl) (fun a b _ _ => ?_)⟩
    unfold cutLinks
    simp only [List.mem_append, List.mem_singleton, true_and]
    by_cases h1 : a = v ∨ b = v
    · rw [if_pos h1, if_pos (by tauto)]
    · rw [if_neg h1]
      by_cases h2 : a ∈ pre ∨ b ∈ pre
      · rw [if_pos h2, if_pos (by tauto)]
      · rw [if_neg h2, if_neg (by tauto)]

theorem esuLoop_finds (hd : Decides s z n k G) (hn : 1 ≤ n) (hk : 1 ≤ k) (hf : Fixed copy z NL R nls) (coin) (pick : List α → Nat) :
    ∀ (todo pre : List (List α)) (m : MNet α W), nls = pre ++ todo → Spec.Looks m 1 z false al S NL (cutLinks copy z pre R) →
    ∃ res, esuLoop copy z s coin pick nls todo m = .ok res ∧ res.Pairwise (fun a b => ¬ Spec.SameSubgraph a b) ∧
      ∀ r ∈ res, r.1.Nodup ∧ r.2.Nodup ∧ r.1.length = n ∧ r.2.length = k ∧ (∃ v ∈ todo, Lowest nls r v) ∧ G NL R r.1 r.2 ∧
        (∀ x ∈ r.1, ∃ l, NL [x, l]) ∧ ∀ x ∈ r.2, ∃ n, NL [n, x] := by
  intro todo
  induction todo with
  | nil => intro pre m _ _; exact ⟨[], rfl, by simp, by simp⟩
  | cons v t ih =>
    intro pre m hs h
    obtain ⟨r, e1, p1, g1⟩ := (root_step hd hn hk hf hs h pick).1 coin
    obtain ⟨m', e2, h'⟩ := next_step hf hs h
    obtain ⟨r', e3, p3, g3⟩ := ih (pre ++ [v]) m' (by rw [hs]; simp) h'
    refine ⟨r ++ r', by simp only [esuLoop, e1, e2, e3], ?_, ?_⟩
    · rw [List.pairwise_append]
      refine ⟨p1, p3, fun a ha b hb hsame => ?_⟩
      obtain ⟨v', hv', hl'⟩ := (g3 b hb).2.2.2.2.1
      have := (g1 a ha).2.2.2.2.1.unique hsame hl'
      subst this
      have hdup := hf.nodup
      rw [hs, List.nodup_append, List.nodup_cons] at hdup
      exact hdup.2.1.1 hv'
    · intro q hq
      rcases List.mem_append.1 hq with hq | hq
      · obtain ⟨a1, a2, a3, a4, a5, a6⟩ := g1 q hq
        exact ⟨a1, a2, a3, a4, ⟨v, by simp, a5⟩, a6⟩
      · obtain ⟨a1, a2, a3, a4, ⟨v', a5, a5'⟩, a6⟩ := g3 q hq
        exact ⟨a1, a2, a3, a4, ⟨v', by simp [a5], a5'⟩, a6⟩

theorem esuLoop_path (hd : Decides s z n k G) (hn : 1 ≤ n) (hk : 1 ≤ k) (hf : Fixed copy z NL R nls) (pick : List α → Nat)
    {A B : List α} (dA : A.Nodup) (dB : B.Nodup) (lA : A.length = n) (lB : B.length = k) {v : List α} (hlow : Lowest nls (A, B) v)
    (hp : Spec.Proper NL (fun u v => R u v ≠ z) A B) :
    ∀ (todo pre : List (List α)) (m : MNet α W), nls = pre ++ todo → v ∈ todo → Spec.Looks m 1 z false al S NL (cutLinks copy z pre R) →
    ∃ path : List (List Nat), path.map List.length = List.range (n + k - 1) ∧
      ∀ coin res, esuLoop copy z s coin pick nls todo m = .ok res → (Ctx.Found res A B ↔ (∀ p ∈ path, coin v p = true) ∧ G NL R A B) := by
  intro todo
  induction todo with
  | nil => intro pre m _ hv; simp at hv
  | cons w t ih =>
    intro pre m hs hv h
    obtain ⟨hfind, hpth⟩ := root_step hd hn hk hf hs h pick
    obtain ⟨m', e2, h'⟩ := next_step hf hs h
    have hs' : nls = (pre ++ [w]) ++ t := by rw [hs]; simp
    have hsplit : ∀ coin res, esuLoop copy z s coin pick nls (w :: t) m = .ok res → ∃ r r', res = r ++ r' ∧
        (Ctx.mk m (s.check m) nls w s.rn s.rl coin pick).root = .ok r ∧ esuLoop copy z s coin pick nls t m' = .ok r' := by
      intro coin res hres
      obtain ⟨r, e1, -⟩ := hfind coin
      obtain ⟨r', e3, -⟩ := esuLoop_finds hd hn hk hf coin pick t (pre ++ [w]) m' hs' h'
      simp only [esuLoop, e1, e2, e3, Except.ok.injEq] at hres
      exact ⟨r, r', hres.symm, e1, e3⟩
    have hdup := hf.nodup
    rw [hs, List.nodup_append, List.nodup_cons] at hdup
    by_cases hvw : v = w
    · subst hvw
      obtain ⟨path, p1, p2⟩ := hpth A B dA dB lA lB hlow hp
      refine ⟨path, p1, fun coin res hres => ?_⟩
      obtain ⟨r, r', rfl, e1, e3⟩ := hsplit coin res hres
      obtain ⟨r'', e3', -, g3⟩ := esuLoop_finds hd hn hk hf coin pick t (pre ++ [v]) m' hs' h'
      rw [e3] at e3'; cases e3'
      rw [Ctx.found_append, p2 coin r e1]
      have : ¬ Ctx.Found r' A B := by
        rintro ⟨q, hq, hsame⟩
        obtain ⟨v', hv', hl'⟩ := (g3 q hq).2.2.2.2.1
        have := hl'.unique hsame hlow
        subst this
        exact hdup.2.1.1 hv'
      simp only [this, or_false]
    · have hvt : v ∈ t := by
        rcases List.mem_cons.1 hv with h | h
        · exact absurd h hvw
        · exact h
      obtain ⟨path, p1, p2⟩ := ih (pre ++ [w]) m' hs' hvt h'
      refine ⟨path, p1, fun coin res hres => ?_⟩
      obtain ⟨r, r', rfl, e1, e3⟩ := hsplit coin res hres
      obtain ⟨r'', e1', -, g1⟩ := hfind coin
      rw [e1] at e1'; cases e1'
      rw [Ctx.found_append, p2 coin r' e3]
      have : ¬ Ctx.Found r A B := by
        rintro ⟨q, hq, hsame⟩
        exact hvw ((g1 q hq).2.2.2.2.1.unique hsame hlow).symm
      simp only [this, false_or]

end

/-! ### The function -/

section

variable {m : MNet α W} {z : W} {al : Bool} {S : Nat → α → Prop} {NL : List α → Prop} {R : List α → List α → W} {s : Search α W} {n k : Nat}
  {G : (List α → Prop) → (List α → List α → W) → List α → List α → Prop}

theorem Fixed.of (copy : Bool) (h : Spec.Looks m 1 z false al S NL R) (hself : copy = true → ∀ v, NL v → R v v = z) :
    Fixed copy z NL R m.nodeLayers :=
  ⟨h.nodeLayers.1, h.nodeLayers.2, nodeLayers_grouped h, fun _ hn => h.nl_length hn, hself⟩

/-- What the function does, for all outcomes of the random draws. -/
theorem esu_spec (h : Spec.Looks m 1 z false al S NL R) (conn : MNet β W → Bool) (name : List α → β) {w : Wanted α W}
    (hw : w.search conn name = .ok s) (hd : Decides s z n k G) (hn : 1 ≤ n) (hk : 1 ≤ k) (copy : Bool)
    (hself : copy = true → ∀ v, NL v → R v v = z) (pick : List α → Nat) :
    (∀ coin, ∃ res, esu conn name w copy z coin pick m = .ok res ∧ res.Pairwise (fun a b => ¬ Spec.SameSubgraph a b) ∧
      ∀ r ∈ res, r.1.Nodup ∧ r.2.Nodup ∧ r.1.length = n ∧ r.2.length = k ∧ G NL R r.1 r.2 ∧
        (∀ x ∈ r.1, ∃ l, NL [x, l]) ∧ ∀ x ∈ r.2, ∃ n, NL [n, x]) ∧
    ∀ A B : List α, A.Nodup → B.Nodup → A.length = n → B.length = k → Spec.Proper NL (fun u v => R u v ≠ z) A B →
      ∃ v, NL v ∧ Spec.Inside A B v ∧ ∃ path : List (List Nat), path.map List.length = List.range (n + k - 1) ∧
        ∀ coin res, esu conn name w copy z coin pick m = .ok res →
          ((∃ r ∈ res, Spec.SameSubgraph r (A, B)) ↔ (∀ p ∈ path, coin v p = true) ∧ G NL R A B) := by
  have key : ∃ m' al' S', (if copy = true then
      m.view.subnetInto [some (m.slices.headD []), some (m.slices.getD 1 [])] false (MNet.init 1 z false false)
    else .ok m) = .ok m' ∧ Spec.Looks m' 1 z false al' S' NL R := by
    cases copy with
    | false => exact ⟨m, al, S, rfl, h⟩
    | true =>
      obtain ⟨m', e, h'⟩ := copy_looks h
      exact ⟨m', _, _, by rw [if_pos rfl]; exact e, h'⟩
  obtain ⟨m', al', S', e, h'⟩ := key
  have hf := Fixed.of copy h' hself
  have h0 : Spec.Looks m' 1 z false al' S' NL (cutLinks copy z [] R) :=
    h'.congr (fun _ _ _ => Iff.rfl) (fun _ => Iff.rfl) (fun _ _ _ _ => by simp [cutLinks])
  have hesu : ∀ coin, esu conn name w copy z coin pick m = esuLoop copy z s coin pick m'.nodeLayers m'.nodeLayers m' := by
    intro coin
    unfold esu
    rw [e, hw]
  constructor
  · intro coin
    obtain ⟨res, e1, p, g⟩ := esuLoop_finds hd hn hk hf coin pick m'.nodeLayers [] m' rfl h0
    refine ⟨res, by rw [hesu, e1], p, fun r hr => ?_⟩
    obtain ⟨a1, a2, a3, a4, -, a6, a7⟩ := g r hr
    exact ⟨a1, a2, a3, a4, a6, a7⟩
  · intro A B dA dB lA lB hp
    obtain ⟨v, hv⟩ := exists_lowest hf.mem hp.1.1
    obtain ⟨path, p1, p2⟩ := esuLoop_path hd hn hk hf pick dA dB lA lB hv hp m'.nodeLayers [] m' rfl hv.1 h0
    refine ⟨v, (hf.mem v).1 hv.1, hv.2.1, path, p1, fun coin res hres => ?_⟩
    exact p2 coin res (by rw [← hesu]; exact hres)

end

end Pymnet
