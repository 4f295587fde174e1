import Verif.Proofs.Neigh

/-! `net.edges` and `len(net.edges)` over the dispatch table. -/

set_option linter.unusedSectionVars false
set_option linter.unusedSimpArgs false

namespace Pymnet

open Py

variable {α W : Type} [DecidableEq α] [DecidableEq W]

namespace View

/-- The dispatch table behaves like a network with link values `R` on the node-layers
`product slices`. -/
structure Sound (v : View α W) (R : List α → List α → W) : Prop where
  slen : v.slices.length = v.aspects + 1
  snodup : ∀ s ∈ v.slices, s.Nodup
  out : ∀ a ∈ product v.slices, ∃ l, v.iterOut a none = .ok l ∧ l.Nodup ∧
    ∀ b, b ∈ l ↔ b ∈ product v.slices ∧ R a b ≠ v.noEdge
  inn : ∀ a ∈ product v.slices, ∃ l, v.iterIn a none = .ok l ∧ l.Nodup ∧
    ∀ b, b ∈ l ↔ b ∈ product v.slices ∧ R b a ≠ v.noEdge
  tot : ∀ a ∈ product v.slices, ∃ l, v.iterTotal a none = .ok l ∧ l.Nodup ∧
    ∀ b, b ∈ l ↔ b ∈ product v.slices ∧ (R a b ≠ v.noEdge ∨ R b a ≠ v.noEdge)
  link : ∀ a ∈ product v.slices, ∀ b ∈ product v.slices, (a = b ∨ R a b ≠ v.noEdge) →
    v.getLink (interleave a b) = .ok (R a b)
  sym : v.directed = false → ∀ a ∈ product v.slices, ∀ b ∈ product v.slices, R a b = R b a
  degOut : ∀ nls, v.nodeLayers = .ok nls → ∀ a ∈ nls, ∀ l, v.iterOut a none = .ok l → v.degOut a none = .ok l.length
  degIn : ∀ nls, v.nodeLayers = .ok nls → ∀ a ∈ nls, ∀ l, v.iterIn a none = .ok l → v.degIn a none = .ok l.length
  degU : v.directed = false → ∀ nls, v.nodeLayers = .ok nls → ∀ a ∈ nls, ∀ l, v.iterTotal a none = .ok l →
    v.deg a none = .ok l.length
  nls : ∃ l, v.nodeLayers = .ok l ∧ l.Nodup ∧ (∀ a ∈ l, a ∈ product v.slices) ∧
    ∀ a ∈ product v.slices, ∀ b ∈ product v.slices, R a b ≠ v.noEdge → a ∈ l ∧ b ∈ l

theorem collect_ok {β γ : Type} {f : β → Except Err (List γ)} {g : β → List γ} {l : List β}
    (h : ∀ x ∈ l, f x = .ok (g x)) : collect f l = .ok (l.flatMap g) := by
  induction l with
  | nil => rfl
  | cons x l ih =>
    simp only [collect, h x (by simp), ih (fun y hy => h y (by simp [hy])), List.flatMap_cons]

/-- the edge tuple of a pair of node-layers -/
def tuple (R : List α → List α → W) (p : List α × List α) : List α × W :=
  (interleave p.1 p.2, R p.1 p.2)

variable {v : View α W} {R : List α → List α → W}

theorem Sound.length_of_mem (h : v.Sound R) {a : List α} (ha : a ∈ product v.slices) :
    a.length = v.aspects + 1 := by rw [length_of_mem_product ha, h.slen]

theorem Sound.nodupP (h : v.Sound R) : (product v.slices).Nodup := nodup_product h.snodup

theorem Sound.edgeOf (h : v.Sound R) {a b : List α} (ha : a ∈ product v.slices)
    (hb : b ∈ product v.slices) (hR : a = b ∨ R a b ≠ v.noEdge) : v.edgeOf a b = .ok [tuple R (a, b)] := by
  unfold View.edgeOf nodesToLink
  rw [if_pos (by rw [h.length_of_mem ha, h.length_of_mem hb])]
  simp only [h.link a ha b hb hR, tuple]

/-- neighbours as a plain list -/
def neigh (v : View α W) (a : List α) : List (List α) :=
  match v.iterTotal a none with
  | .ok l => l
  | .error _ => []

/-- out-neighbours as a plain list -/
def outs (v : View α W) (a : List α) : List (List α) :=
  match v.iterOut a none with
  | .ok l => l
  | .error _ => []

theorem Sound.neigh_spec (h : v.Sound R) {a : List α} (ha : a ∈ product v.slices) :
    v.iterTotal a none = .ok (v.neigh a) ∧ (v.neigh a).Nodup ∧
    ∀ b, b ∈ v.neigh a ↔ b ∈ product v.slices ∧ (R a b ≠ v.noEdge ∨ R b a ≠ v.noEdge) := by
  obtain ⟨l, h1, h2, h3⟩ := h.tot a ha
  have : v.neigh a = l := by unfold neigh; rw [h1]
  rw [this]; exact ⟨h1, h2, h3⟩

theorem Sound.outs_spec (h : v.Sound R) {a : List α} (ha : a ∈ product v.slices) :
    v.iterOut a none = .ok (v.outs a) ∧ (v.outs a).Nodup ∧
    ∀ b, b ∈ v.outs a ↔ b ∈ product v.slices ∧ R a b ≠ v.noEdge := by
  obtain ⟨l, h1, h2, h3⟩ := h.out a ha
  have : v.outs a = l := by unfold outs; rw [h1]
  rw [this]; exact ⟨h1, h2, h3⟩

/-- the pairs yielded by the undirected loop -/
def pairsUndir (v : View α W) : List (List α) → List (List α) → List (List α × List α)
  | [], _ => []
  | a :: rest, it =>
    ((v.neigh a).filter (fun n => n ∉ it)).map (fun b => (a, b)) ++ pairsUndir v rest (sadd it a)

theorem flatMap_single {β γ : Type} (l : List β) (f : β → γ) : (l.flatMap fun x => [f x]) = l.map f := by
  induction l with
  | nil => rfl
  | cons x l ih => simp [ih]

theorem Sound.edgesUndir (h : v.Sound R) (hd : v.directed = false) (l it : List (List α)) (hl : ∀ a ∈ l, a ∈ product v.slices) :
    v.edgesUndir l it = .ok ((v.pairsUndir l it).map (tuple R)) := by
  induction l generalizing it with
  | nil => rfl
  | cons a rest ih =>
    obtain ⟨h1, -, h3⟩ := h.neigh_spec (hl a (by simp))
    simp only [View.edgesUndir, h1]
    rw [collect_ok (g := fun b => [tuple R (a, b)])]
    · simp only
      rw [ih (sadd it a) (fun x hx => hl x (by simp [hx]))]
      simp only [pairsUndir, List.map_append, List.map_map]
      rw [flatMap_single]; rfl
    · intro b hb
      simp only [List.mem_filter] at hb
      have hb' := (h3 b).1 hb.1
      exact h.edgeOf (hl a (by simp)) hb'.1 (Or.inr (hb'.2.elim id fun e => by
        rw [h.sym hd a (hl a (by simp)) b hb'.1]; exact e))

theorem mem_pairsUndir {l it : List (List α)} {a b : List α} (h : (a, b) ∈ v.pairsUndir l it) :
    a ∈ l ∧ b ∈ v.neigh a ∧ b ∉ it := by
  induction l generalizing it with
  | nil => simp [pairsUndir] at h
  | cons c rest ih =>
    simp only [pairsUndir, List.mem_append, List.mem_map, List.mem_filter, decide_eq_true_eq,
      Prod.mk.injEq] at h
    rcases h with ⟨b', ⟨h1, h2⟩, rfl, rfl⟩ | h
    · exact ⟨by simp, h1, by simpa using h2⟩
    · obtain ⟨h1, h2, h3⟩ := ih h
      exact ⟨by simp [h1], h2, fun hb => h3 (mem_sadd.2 (Or.inl hb))⟩

theorem pairsUndir_complete (hsym : ∀ a b, a ∈ product v.slices → b ∈ product v.slices →
      b ∈ v.neigh a → a ∈ v.neigh b)
    {l it : List (List α)} (hl : l.Nodup) (hd : ∀ a ∈ l, a ∉ it) (hP : ∀ a ∈ l, a ∈ product v.slices)
    {a b : List α} (ha : a ∈ l) (hb : b ∈ l) (hn : b ∈ v.neigh a) :
    (a, b) ∈ v.pairsUndir l it ∨ (b, a) ∈ v.pairsUndir l it := by
  induction l generalizing it with
  | nil => simp at ha
  | cons c rest ih =>
    simp only [pairsUndir, List.mem_append, List.mem_map, List.mem_filter, decide_eq_true_eq,
      Prod.mk.injEq]
    by_cases hac : a = c
    · subst hac
      exact Or.inl (Or.inl ⟨b, ⟨hn, by simpa using hd b hb⟩, rfl, rfl⟩)
    · by_cases hbc : b = c
      · subst hbc
        exact Or.inr (Or.inl ⟨a, ⟨hsym a b (hP a ha) (hP b hb) hn, by simpa using hd a ha⟩, rfl, rfl⟩)
      · have ha' : a ∈ rest := by simpa [hac] using ha
        have hb' : b ∈ rest := by simpa [hbc] using hb
        have := ih (it := sadd it c) (List.nodup_cons.1 hl).2
          (fun x hx hxc => by
            rcases mem_sadd.1 hxc with h | rfl
            · exact hd x (by simp [hx]) h
            · exact (List.nodup_cons.1 hl).1 hx)
          (fun x hx => hP x (by simp [hx])) ha' hb'
        tauto

theorem pairsUndir_excl {l it : List (List α)} {a b : List α} (hne : a ≠ b)
    (h : (a, b) ∈ v.pairsUndir l it) : (b, a) ∉ v.pairsUndir l it := by
  induction l generalizing it with
  | nil => simp [pairsUndir]
  | cons c rest ih =>
    simp only [pairsUndir, List.mem_append, List.mem_map, List.mem_filter, decide_eq_true_eq,
      Prod.mk.injEq] at h ⊢
    rcases h with ⟨b', ⟨h1, h2⟩, rfl, rfl⟩ | h
    · rintro (⟨a', ⟨-, -⟩, e, -⟩ | h')
      · exact hne e
      · exact (mem_pairsUndir h').2.2 (mem_sadd.2 (Or.inr rfl))
    · rintro (⟨a', ⟨-, -⟩, rfl, -⟩ | h')
      · exact (mem_pairsUndir h).2.2 (mem_sadd.2 (Or.inr rfl))
      · exact ih h h'

theorem pairsUndir_nodup {l it : List (List α)} (hl : l.Nodup) (hn : ∀ a ∈ l, (v.neigh a).Nodup) :
    (v.pairsUndir l it).Nodup := by
  induction l generalizing it with
  | nil => simp [pairsUndir]
  | cons c rest ih =>
    obtain ⟨hc, hr⟩ := List.nodup_cons.1 hl
    simp only [pairsUndir]
    rw [List.nodup_append]
    refine ⟨((hn c (by simp)).filter _).map (fun x y h => by simpa using h),
      ih hr (fun a ha => hn a (by simp [ha])), ?_⟩
    rintro ⟨x, y⟩ h1 ⟨x', y'⟩ h2 e
    cases e
    simp only [List.mem_map, Prod.mk.injEq] at h1
    obtain ⟨_, -, rfl, -⟩ := h1
    exact hc (mem_pairsUndir h2).1

theorem nodup_flatMap_pairs {β γ : Type} [DecidableEq β] {l : List β} {f : β → List γ} (hl : l.Nodup)
    (hf : ∀ a ∈ l, (f a).Nodup) : (l.flatMap fun a => (f a).map fun b => (a, b)).Nodup := by
  induction l with
  | nil => simp
  | cons c rest ih =>
    obtain ⟨hc, hr⟩ := List.nodup_cons.1 hl
    rw [List.flatMap_cons, List.nodup_append]
    refine ⟨(hf c (by simp)).map (fun x y h => by simpa using h),
      ih hr (fun a ha => hf a (by simp [ha])), ?_⟩
    rintro ⟨x, y⟩ h1 ⟨x', y'⟩ h2 e
    cases e
    simp only [List.mem_map, Prod.mk.injEq, List.mem_flatMap] at h1 h2
    obtain ⟨_, -, rfl, -⟩ := h1
    obtain ⟨a, ha, _, -, rfl, -⟩ := h2
    exact hc ha

/-- What `net.edges` yields, as a list of pairs of node-layers. -/
theorem Sound.edges (h : v.Sound R) : ∃ ps : List (List α × List α),
    v.edges = .ok (ps.map (tuple R)) ∧ ps.Nodup ∧
    (∀ p ∈ ps, p.1 ∈ product v.slices ∧ p.2 ∈ product v.slices ∧ R p.1 p.2 ≠ v.noEdge) ∧
    (v.directed = true → ∀ a ∈ product v.slices, ∀ b ∈ product v.slices, R a b ≠ v.noEdge → (a, b) ∈ ps) ∧
    (v.directed = false →
      (∀ a ∈ product v.slices, ∀ b ∈ product v.slices, R a b ≠ v.noEdge → (a, b) ∈ ps ∨ (b, a) ∈ ps) ∧
      ∀ a b, a ≠ b → (a, b) ∈ ps → (b, a) ∉ ps) := by
  cases hd : v.directed with
  | true =>
    refine ⟨(product v.slices).flatMap fun a => (v.outs a).map fun b => (a, b), ?_, ?_, ?_, ?_, by simp⟩
    · unfold View.edges
      rw [if_pos hd, collect_ok (g := fun a => (v.outs a).map fun b => tuple R (a, b))]
      · rw [List.map_flatMap]; simp only [List.map_map]; rfl
      · intro a ha
        obtain ⟨h1, -, h3⟩ := h.outs_spec ha
        simp only [h1]
        rw [collect_ok (g := fun b => [tuple R (a, b)]), flatMap_single]
        intro b hb
        exact h.edgeOf ha ((h3 b).1 hb).1 (Or.inr ((h3 b).1 hb).2)
    · exact nodup_flatMap_pairs h.nodupP (fun a ha => (h.outs_spec ha).2.1)
    · rintro ⟨a, b⟩ hp
      simp only [List.mem_flatMap, List.mem_map, Prod.mk.injEq] at hp
      obtain ⟨a', ha, b', hb, rfl, rfl⟩ := hp
      have := ((h.outs_spec ha).2.2 b').1 hb
      exact ⟨ha, this.1, this.2⟩
    · intro _ a ha b hb hR
      simp only [List.mem_flatMap, List.mem_map, Prod.mk.injEq]
      exact ⟨a, ha, b, ((h.outs_spec ha).2.2 b).2 ⟨hb, hR⟩, rfl, rfl⟩
  | false =>
    refine ⟨v.pairsUndir (product v.slices) [], ?_, ?_, ?_, by simp, fun _ => ⟨?_, ?_⟩⟩
    · unfold View.edges
      rw [if_neg (by simp [hd]), h.edgesUndir hd _ _ (fun a ha => ha)]
    · exact pairsUndir_nodup h.nodupP (fun a ha => (h.neigh_spec ha).2.1)
    · rintro ⟨a, b⟩ hp
      obtain ⟨h1, h2, -⟩ := mem_pairsUndir hp
      have := ((h.neigh_spec h1).2.2 b).1 h2
      refine ⟨h1, this.1, ?_⟩
      rcases this.2 with h3 | h3
      · exact h3
      · simp only; rw [h.sym hd a h1 b this.1]; exact h3
    · intro a ha b hb hR
      refine pairsUndir_complete ?_ h.nodupP (by simp) (fun a ha => ha) ha hb
        (((h.neigh_spec ha).2.2 b).2 ⟨hb, Or.inl hR⟩)
      intro x y hx hy hxy
      have := ((h.neigh_spec hx).2.2 y).1 hxy
      exact ((h.neigh_spec hy).2.2 x).2 ⟨hx, this.2.symm⟩
    · intro a b hab hm; exact pairsUndir_excl hab hm

theorem Sound.lenLoop (h : v.Sound R) (l : List (List α)) (hl : ∀ a ∈ l, a ∈ product v.slices)
    {nls : List (List α)} (hn : v.nodeLayers = .ok nls) (hs : ∀ a ∈ l, a ∈ nls) (acc : Int) :
    v.lenLoop l acc = .ok (acc + (l.map fun a =>
      if v.directed then ((v.outs a).length : Int)
      else (v.neigh a).length + if R a a ≠ v.noEdge then 1 else 0).sum) := by
  induction l generalizing acc with
  | nil => simp [View.lenLoop]
  | cons a rest ih =>
    have ha := hl a (by simp)
    have hr : ∀ x ∈ rest, x ∈ product v.slices := fun x hx => hl x (by simp [hx])
    have hs' : ∀ x ∈ rest, x ∈ nls := fun x hx => hs x (by simp [hx])
    cases hd : v.directed with
    | true =>
      have := h.degOut _ hn a (hs a (by simp)) _ (h.outs_spec ha).1
      simp only [View.lenLoop, hd, if_true, this]
      rw [ih hr hs']; simp [hd, add_assoc]
    | false =>
      have := h.degU hd _ hn a (hs a (by simp)) _ (h.neigh_spec ha).1
      simp only [View.lenLoop, hd, Bool.false_eq_true, if_false, this, nodesToLink, if_true,
        h.link a ha a ha (Or.inl rfl)]
      rw [ih hr hs']; simp [hd, add_assoc]

/-- handshake: the ordered pairs are the listed pairs in both orientations -/
theorem handshake {β : Type} [DecidableEq β] {ps os ds : List (β × β)} (hps : ps.Nodup) (hos : os.Nodup)
    (hds : ds.Nodup) (hexcl : ∀ a b, a ≠ b → (a, b) ∈ ps → (b, a) ∉ ps)
    (ho : ∀ a b, (a, b) ∈ os ↔ (a, b) ∈ ps ∨ (b, a) ∈ ps)
    (hdiag : ∀ a b, (a, b) ∈ ds ↔ a = b ∧ (a, a) ∈ ps) :
    os.length + ds.length = 2 * ps.length := by
  have e1 : os.toFinset = ps.toFinset ∪ (ps.map Prod.swap).toFinset := by
    ext ⟨a, b⟩; simp [ho]
  have e2 : ds.toFinset = ps.toFinset ∩ (ps.map Prod.swap).toFinset := by
    ext ⟨a, b⟩
    simp only [List.mem_toFinset, hdiag, Finset.mem_inter, List.mem_map, Prod.exists, Prod.swap_prod_mk,
      Prod.mk.injEq]
    constructor
    · rintro ⟨rfl, h⟩; exact ⟨h, a, a, h, rfl, rfl⟩
    · rintro ⟨h1, x, y, h2, rfl, rfl⟩
      by_cases hxy : x = y
      · subst hxy; exact ⟨rfl, h1⟩
      · exact absurd h1 (hexcl _ _ hxy h2)
  have hsw : (ps.map Prod.swap).Nodup := hps.map Prod.swap_injective
  have := Finset.card_union_add_card_inter ps.toFinset (ps.map Prod.swap).toFinset
  rw [← e1, ← e2, List.toFinset_card_of_nodup hos, List.toFinset_card_of_nodup hds,
    List.toFinset_card_of_nodup hps, List.toFinset_card_of_nodup hsw, List.length_map] at this
  omega

theorem sum_length_eq {β : Type} (l : List β) (f : β → List β) :
    (l.map fun a => ((f a).length : Int)).sum = ((l.flatMap fun a => (f a).map fun b => (a, b)).length : Int) := by
  induction l with
  | nil => rfl
  | cons a l ih => simp [ih]

theorem sum_ite_eq {β : Type} (l : List β) (p : β → Prop) [DecidablePred p] :
    (l.map fun a => if p a then (1 : Int) else 0).sum = ((l.filter p).length : Int) := by
  induction l with
  | nil => rfl
  | cons a l ih =>
    by_cases h : p a
    · simp [h, ih]; omega
    · simp [h, ih]

theorem sum_add {β : Type} (l : List β) (f g : β → Int) :
    (l.map fun a => f a + g a).sum = (l.map f).sum + (l.map g).sum := by
  induction l with
  | nil => rfl
  | cons a l ih => simp [ih]; omega

/-- `len(net.edges)` is the number of yielded edges. -/
theorem Sound.edgesLen (h : v.Sound R) : ∃ es, v.edges = .ok es ∧ v.edgesLen = .ok es.length := by
  obtain ⟨ps, h1, h2, h3, h4, h5⟩ := h.edges
  refine ⟨_, h1, ?_⟩
  obtain ⟨nls, n1, n2, n3, n4⟩ := h.nls
  unfold View.edgesLen
  rw [n1]
  simp only
  rw [h.lenLoop nls n3 n1 (fun _ h => h)]
  simp only [Int.zero_add, Except.ok.injEq, List.length_map]
  cases hd : v.directed with
  | true =>
    simp only [if_true]
    rw [sum_length_eq]
    have hperm : (nls.flatMap fun a => (v.outs a).map fun b => (a, b)).Perm ps := by
      rw [List.perm_ext_iff_of_nodup (nodup_flatMap_pairs n2 (fun a ha => (h.outs_spec (n3 a ha)).2.1)) h2]
      rintro ⟨a, b⟩
      simp only [List.mem_flatMap, List.mem_map, Prod.mk.injEq]
      constructor
      · rintro ⟨a', ha, b', hb, rfl, rfl⟩
        have := ((h.outs_spec (n3 _ ha)).2.2 b').1 hb
        exact h4 hd _ (n3 _ ha) _ this.1 this.2
      · intro hp
        obtain ⟨p1, p2, p3⟩ := h3 _ hp
        exact ⟨a, (n4 a p1 b p2 p3).1, b, ((h.outs_spec p1).2.2 b).2 ⟨p2, p3⟩, rfl, rfl⟩
    rw [hperm.length_eq]
  | false =>
    simp only [Bool.false_eq_true, if_false]
    rw [sum_add, sum_length_eq, sum_ite_eq]
    obtain ⟨c1, c2⟩ := h5 hd
    have hs := handshake (ps := ps)
      (os := nls.flatMap fun a => (v.neigh a).map fun b => (a, b))
      (ds := (nls.filter fun a => R a a ≠ v.noEdge).map fun a => (a, a))
      h2 (nodup_flatMap_pairs n2 (fun a ha => (h.neigh_spec (n3 a ha)).2.1))
      ((n2.filter _).map (fun x y e => by simpa using e)) c2 ?_ ?_
    · rw [List.length_map] at hs; omega
    · intro a b
      simp only [List.mem_flatMap, List.mem_map, Prod.mk.injEq]
      constructor
      · rintro ⟨a', ha, b', hb, rfl, rfl⟩
        have hb' := ((h.neigh_spec (n3 _ ha)).2.2 b').1 hb
        rcases hb'.2 with hR | hR
        · exact c1 _ (n3 _ ha) _ hb'.1 hR
        · exact (c1 _ hb'.1 _ (n3 _ ha) hR).symm
      · rintro (hp | hp)
        · obtain ⟨p1, p2, p3⟩ := h3 _ hp
          exact ⟨a, (n4 a p1 b p2 p3).1, b, ((h.neigh_spec p1).2.2 b).2 ⟨p2, Or.inl p3⟩, rfl, rfl⟩
        · obtain ⟨p1, p2, p3⟩ := h3 _ hp
          exact ⟨a, (n4 b p1 a p2 p3).2, b, ((h.neigh_spec p2).2.2 b).2 ⟨p1, Or.inr p3⟩, rfl, rfl⟩
    · intro a b
      simp only [List.mem_map, List.mem_filter, decide_eq_true_eq, Prod.mk.injEq]
      constructor
      · rintro ⟨a', ⟨ha, hR⟩, rfl, rfl⟩
        have := c1 _ (n3 _ ha) _ (n3 _ ha) hR
        exact ⟨rfl, by tauto⟩
      · rintro ⟨rfl, hp⟩
        obtain ⟨p1, p2, p3⟩ := h3 _ hp
        exact ⟨a, ⟨(n4 a p1 a p2 p3).1, p3⟩, rfl, rfl⟩

end View

end Pymnet
