import Verif.Proofs.SubnetP2
import Verif.Proofs.Relabel

/-! `relabel` of a multiplex network. -/

set_option linter.unusedSectionVars false
set_option linter.unusedSimpArgs false

namespace Pymnet

open Py MPlex

variable {α W : Type} [DecidableEq α] [DecidableEq W] [Zero W]

variable {p : MPlex α W} {cs : List (Coupling α W)} {dir al : Bool} {z : W} {ns : Prop} {S : α → Prop}
  {LY : Nat → α → Prop} {NL : α → List α → Prop} {R : List α → α → α → W}

/-- the new name of a layer tuple -/
def renL (f : Nat → α → α) (s : List α) : List α := s.mapIdx fun k x => f (k + 1) x

theorem renL_length (f : Nat → α → α) (s : List α) : (renL f s).length = s.length := by simp [renL]

theorem renL_get (f : Nat → α → α) (s : List α) (k : Nat) (y : α) :
    (renL f s)[k]? = some y ↔ ∃ x, s[k]? = some x ∧ y = f (k + 1) x := by
  unfold renL
  rw [List.getElem?_mapIdx]
  cases s[k]? with
  | none => simp
  | some x => simp [eq_comm]

theorem renL_inj {d : Nat} {f : Nat → α → α} (hinj : ∀ a, 1 ≤ a → a ≤ d → ∀ x y, LY a x → LY a y → f a x = f a y → x = y)
    {s t : List α} (hs : LYs d LY s) (ht : LYs d LY t) (h : renL f s = renL f t) : s = t := by
  apply List.ext_getElem?
  intro k
  by_cases hk : k < d
  · have e1 : s[k]? = some (s[k]'(by rw [hs.1]; exact hk)) := List.getElem?_eq_getElem _
    have e2 : t[k]? = some (t[k]'(by rw [ht.1]; exact hk)) := List.getElem?_eq_getElem _
    have h1 := (renL_get f s k _).2 ⟨_, e1, rfl⟩
    rw [h] at h1
    obtain ⟨x, hx, he⟩ := (renL_get f t k _).1 h1
    rw [e2] at hx; cases hx
    rw [e1, e2, hinj (k + 1) (by omega) (by omega) _ _ (hs.2 k _ e1) (ht.2 k _ e2) he]
  · have h1 := hs.1
    have h2 := ht.1
    rw [List.getElem?_eq_none (by omega), List.getElem?_eq_none (by omega)]

theorem MPlex.iterLayers_eq (h : p.P0) : p.iterLayers = (product (p.slices.drop 1)).map LKey.ofList := by
  unfold MPlex.iterLayers
  by_cases h2 : 1 < p.aspects
  · rw [if_pos h2]
    refine List.map_congr_left fun s hs => ?_
    have := length_of_mem_product hs
    rw [List.length_drop, h.slen] at this
    match s, this with
    | _ :: _ :: _, _ => rfl
    | [_], e => simp at e; omega
    | [], e => simp at e; omega
  · rw [if_neg h2]
    have h1 : p.aspects = 1 := by have := h.asp; omega
    rw [if_pos h1]
    have hl := h.slen
    rw [h1] at hl
    match hs : p.slices, hl with
    | [a, b], _ =>
      simp only [Py.product, List.drop_succ_cons, List.drop_zero, List.map_flatMap]
      clear hs
      induction b with
      | nil => rfl
      | cons x b ih => simpa [LKey.ofList] using ih

namespace BuiltX

theorem mem_iterLayers (h : BuiltX p cs dir z al ns S LY NL R) (hcs : cs ≠ []) {L : LKey α} (hL : L ∈ p.iterLayers) :
    ∃ s, L = .ofList s ∧ LYs cs.length LY s := by
  have hp := h.pinv hcs
  have hpar := h.params hcs
  rw [MPlex.iterLayers_eq hp.core, List.mem_map] at hL
  obtain ⟨s, hs, rfl⟩ := hL
  refine ⟨s, rfl, ?_⟩
  have hl : s.length = cs.length := by
    have := length_of_mem_product hs
    rw [List.length_drop, hp.core.slen, hpar.1] at this; omega
  refine ⟨hl, fun k x hx => ?_⟩
  obtain ⟨t, ht, hxt⟩ := (mem_product_get.1 hs).2 k x hx
  rw [List.getElem?_drop] at ht
  have hk : k + 1 ≤ cs.length := by
    have := (List.getElem?_eq_some_iff.1 hx).1; omega
  have := (h.mem_slices hcs hk x).1 (by rw [Nat.add_comm] at ht; simp [List.getD, ht, hxt])
  rwa [if_neg (by omega)] at this

theorem mem_iterLayers' (h : BuiltX p cs dir z al ns S LY NL R) (hcs : cs ≠ []) {s : List α} (hs : LYs cs.length LY s) :
    LKey.ofList s ∈ p.iterLayers := by
  have hp := h.pinv hcs
  have hpar := h.params hcs
  rw [MPlex.iterLayers_eq hp.core, List.mem_map]
  refine ⟨s, mem_product_get.2 ⟨by rw [List.length_drop, hp.core.slen, hpar.1, hs.1]; omega, fun k x hx => ?_⟩, rfl⟩
  have hk : k + 1 ≤ cs.length := by
    have := (List.getElem?_eq_some_iff.1 hx).1; have := hs.1; omega
  have := (h.mem_slices hcs hk x).2 (by rw [if_neg (by omega)]; exact hs.2 k x hx)
  have hlt : k + 1 < p.slices.length := by rw [hp.core.slen, hpar.1]; omega
  refine ⟨p.slices[k + 1], by rw [List.getElem?_drop, Nat.add_comm]; exact List.getElem?_eq_getElem hlt, ?_⟩
  simpa [List.getD, List.getElem?_eq_getElem hlt] using this

/-- the loop adding the nodes -/
theorem addNodes (h : BuiltX p cs dir z al ns S LY NL R) (hcs : cs ≠ []) (g : α → α) (l : List α) :
    ∃ q, forE (fun (m : MPlex α W) x => (m.addNode (g x) none).toExcept) l p = .ok q ∧
      BuiltX q cs dir z al ns (fun y => S y ∨ ∃ x ∈ l, y = g x) LY NL R := by
  refine forE_ok (P := fun pre q => BuiltX q cs dir z al ns (fun y => S y ∨ ∃ x ∈ pre, y = g x) LY NL R) l
    (h.congr (by simp) (by simp) (by simp) (by simp)) ?_
  intro pre b post q _ hq
  obtain ⟨q', e, hq'⟩ := hq.addNode hcs (g b)
  refine ⟨q', e, hq'.congr (fun y => ?_) (fun _ _ _ _ => Iff.rfl) (fun _ _ _ _ => Iff.rfl) (fun _ _ _ _ => rfl)⟩
  simp [or_and_right, exists_or, or_assoc]

/-- the loop adding the elementary layers of one aspect -/
theorem addLayers (h : BuiltX p cs dir z al ns S LY NL R) (hcs : cs ≠ []) {a : Nat} (h1 : 1 ≤ a) (h2 : a ≤ cs.length)
    (g : α → α) (l : List α) :
    ∃ q, forE (fun (m : MPlex α W) x => (m.addLayer (g x) a).toExcept) l p = .ok q ∧
      BuiltX q cs dir z al ns S (fun k y => LY k y ∨ (k = a ∧ ∃ x ∈ l, y = g x)) NL R := by
  refine forE_ok (P := fun pre q => BuiltX q cs dir z al ns S (fun k y => LY k y ∨ (k = a ∧ ∃ x ∈ pre, y = g x)) NL R) l
    (h.congr (by simp) (by simp) (by simp) (by simp)) ?_
  intro pre b post q _ hq
  obtain ⟨q', e, hq'⟩ := hq.addLayer hcs h1 h2 (g b)
  refine ⟨q', e, hq'.congr (fun _ => Iff.rfl) (fun k y _ _ => ?_) (fun _ _ _ _ => Iff.rfl) (fun _ _ _ _ => rfl)⟩
  simp [or_and_right, exists_or, or_assoc, and_or_left]

/-- the loops adding the elementary layers -/
theorem relabelLayers (hcs : cs ≠ []) (ds : List (Dict α α)) (ss : List (List α)) (a : Nat) {q : MPlex α W}
    {LY : Nat → α → Prop} (h : BuiltX q cs dir z al ns S LY NL R) (ha : 1 ≤ a) (hl : a + ss.length ≤ cs.length + 1)
    (hd : ds.length = ss.length) :
    ∃ q', relabelLayersP ds ss a q = .ok q' ∧
      BuiltX q' cs dir z al ns S (fun k y => LY k y ∨ (a ≤ k ∧ ∃ d s x, ds[k - a]? = some d ∧ ss[k - a]? = some s ∧ x ∈ s ∧
        y = dget d x)) NL R := by
  induction ss generalizing a q LY ds with
  | nil =>
    cases ds with
    | nil => exact ⟨q, rfl, h.congr (by simp) (by simp) (by simp) (by simp)⟩
    | cons f ds => simp at hd
  | cons s ss ih =>
    cases ds with
    | nil => simp at hd
    | cons f ds =>
    simp only [List.length_cons] at hl
    obtain ⟨m1, e1, h1⟩ := h.addLayers hcs ha (by omega) (dget f) s
    obtain ⟨m2, e2, h2⟩ := ih ds (a + 1) h1 (by omega) (by omega) (by simpa using hd)
    refine ⟨m2, by simp only [relabelLayersP, e1]; exact e2,
      h2.congr (fun _ => Iff.rfl) (fun k x _ _ => ?_) (fun _ _ _ _ => Iff.rfl) (fun _ _ _ _ => rfl)⟩
    rw [or_assoc]
    refine or_congr_right ?_
    rcases Nat.lt_trichotomy k a with hk | hk | hk
    · constructor
      · rintro (⟨h, -⟩ | ⟨h, -⟩) <;> omega
      · rintro ⟨h, -⟩; omega
    · subst hk
      constructor
      · rintro (⟨-, x, hx, rfl⟩ | ⟨h, -⟩)
        · exact ⟨le_refl _, f, s, x, by simp, by simp, hx, rfl⟩
        · omega
      · rintro ⟨-, d, s', y, h1, h2, h3, rfl⟩
        simp at h1 h2; subst h1; subst h2
        exact .inl ⟨rfl, y, h3, rfl⟩
    · obtain ⟨j, rfl⟩ : ∃ j, k = a + 1 + j := ⟨k - a - 1, by omega⟩
      have e1 : a + 1 + j - (a + 1) = j := by omega
      have e2 : a + 1 + j - a = j + 1 := by omega
      rw [e1, e2]
      simp only [List.getElem?_cons_succ]
      constructor
      · rintro (⟨h, -⟩ | ⟨-, h⟩)
        · omega
        · exact ⟨by omega, h⟩
      · rintro ⟨-, h⟩; exact .inr ⟨by omega, h⟩

/-- the loop adding the node-layers; nodes and layers are there already -/
theorem addNodeLs' (h : BuiltX p cs dir z false ns S LY NL R) (hcs : cs ≠ []) {g : MPlex α W → List α → Except Err (MPlex α W)}
    (a : α → α) (b : List α → List α) (l : List (List α))
    (hg : ∀ u ∈ l, ∃ x s, u = x :: s ∧ S (a x) ∧ LYs cs.length LY (b s) ∧
      ∀ q, g q (x :: s) = (q.addNode (a x) (some (.ofList (b s)))).toExcept) :
    ∃ q, forE g l p = .ok q ∧
      BuiltX q cs dir z false ns S LY (fun m s => NL m s ∨ ∃ x t, x :: t ∈ l ∧ m = a x ∧ s = b t) R := by
  refine forE_ok (P := fun pre q =>
    BuiltX q cs dir z false ns S LY (fun m s => NL m s ∨ ∃ x t, x :: t ∈ pre ∧ m = a x ∧ s = b t) R) l
    (h.congr (by simp) (by simp) (by simp) (by simp)) ?_
  intro pre u post q hpre hq
  obtain ⟨x, t, rfl, hS, hL, hg⟩ := hg u (by rw [hpre]; simp)
  obtain ⟨q', e, hq'⟩ := hq.addNodeL hcs (a x) (s := b t) hL.1
  refine ⟨q', (hg q).trans e, hq'.congr (fun y => or_iff_left_of_imp fun e => e ▸ hS) (fun k y k1 k2 => or_iff_left_of_imp ?_)
    (fun _ m s _ => ?_) (fun _ _ _ _ => rfl)⟩
  · intro hy
    have := hL.2 (k - 1) y hy
    rwa [Nat.sub_add_cancel k1] at this
  · rw [or_assoc]
    refine or_congr_right ⟨?_, ?_⟩
    · rintro (⟨y, r, h1, h2⟩ | h)
      · exact ⟨y, r, by simp [h1], h2⟩
      · exact ⟨x, t, by simp, h⟩
    · rintro ⟨y, r, h1, h2⟩
      simp only [List.mem_append, List.mem_singleton] at h1
      rcases h1 with h1 | h1
      · exact .inl ⟨y, r, h1, h2⟩
      · cases h1; exact .inr h2

/-- changing `ns` -/
theorem weaken (h : BuiltX p cs dir z al ns S LY NL R) {ns' : Prop} (hn : ns' → ns) : BuiltX p cs dir z al ns' S LY NL R := by
  obtain ⟨ops, h0, h1, h2⟩ := h
  exact ⟨ops, h0, fun h => h1 (hn h), h2⟩

end BuiltX

section links
variable [IntNames α] {q : MPlex α W} {S' : α → Prop} {LY' : Nat → α → Prop} {NL' : α → List α → Prop}

/-- the state of the loops over the links: what was copied reads as before, everything else reads 0 -/
def Copied (q : MPlex α W) (cs : List (Coupling α W)) (dir : Bool) (z : W) (al : Bool) (S' : α → Prop)
    (LY' : Nat → α → Prop) (NL' : α → List α → Prop) (f : Nat → α → α) (LY : Nat → α → Prop) (S : α → Prop)
    (R : List α → α → α → W) (D : List α → α → α → Prop) : Prop :=
  ∃ R', BuiltX q cs dir z al True S' LY' NL' R' ∧
    (∀ t i j, LYs cs.length LY t → S i → S j →
      R' (renL f t) (f 0 i) (f 0 j) = R t i j ∨ (¬ D t i j ∧ R' (renL f t) (f 0 i) (f 0 j) = 0)) ∧
    ∀ t' i' j', R' t' i' j' ≠ 0 → ∃ t i j, LYs cs.length LY t ∧ S i ∧ S j ∧ t' = renL f t ∧ i' = f 0 i ∧ j' = f 0 j ∧
      R t i j ≠ 0

theorem Copied.mono {f : Nat → α → α} {D D' : List α → α → α → Prop} (h : Copied q cs dir z al S' LY' NL' f LY S R D)
    (hD : ∀ t i j, D' t i j → D t i j) : Copied q cs dir z al S' LY' NL' f LY S R D' := by
  obtain ⟨R', h1, h2, h3⟩ := h
  exact ⟨R', h1, fun t i j a b c => (h2 t i j a b c).imp_right fun ⟨h, e⟩ => ⟨fun hd => h (hD _ _ _ hd), e⟩, h3⟩

/-- one assignment -/
theorem Copied.set {f : Nat → α → α} {D : List α → α → α → Prop} (h : Copied q cs dir z al S' LY' NL' f LY S R D) (hcs : cs ≠ [])
    (hinj0 : ∀ x y, S x → S y → f 0 x = f 0 y → x = y)
    (hinj : ∀ a, 1 ≤ a → a ≤ cs.length → ∀ x y, LY a x → LY a y → f a x = f a y → x = y)
    (hsym : dir = false → ∀ t i j, R t i j = R t j i)
    {t : List α} {i j : α} (ht : LYs cs.length LY t) (hi : S i) (hj : S j) (hij : i ≠ j)
    (hLY : LYs cs.length LY' (renL f t)) (hS1 : S' (f 0 i)) (hS2 : S' (f 0 j))
    (hN1 : al = false → NL' (f 0 i) (renL f t)) (hN2 : al = false → NL' (f 0 j) (renL f t)) :
    ∃ q', (q.setItem (f 0 i :: f 0 j :: renL f t) (R t i j)).toExcept = .ok q' ∧
      Copied q' cs dir z al S' LY' NL' f LY S R (fun t' i' j' => D t' i' j' ∨ (t' = t ∧ i' = i ∧ j' = j)) := by
  classical
  obtain ⟨R', h1, h2, h3⟩ := h
  have hl := hLY.1
  obtain ⟨q', e, hq⟩ := h1.setItem hcs (item := f 0 i :: f 0 j :: renL f t) (i := f 0 i) (j := f 0 j) (s := renL f t)
    (fun he => hij (hinj0 _ _ hi hj he)) ⟨by simp [hl], by simp [hl], .inr ⟨_, _, _, rfl, rfl, rfl⟩⟩ (R t i j)
  refine ⟨q', e, _, hq.congr (fun x => ?_) (fun k x k1 k2 => ?_) (fun ha n s _ => ?_) (fun _ _ _ _ => rfl), ?_, ?_⟩
  · refine or_iff_left_of_imp ?_
    rintro (rfl | rfl) <;> assumption
  · refine or_iff_left_of_imp fun hx => ?_
    have := hLY.2 (k - 1) x hx
    rwa [Nat.sub_add_cancel k1] at this
  · refine or_iff_left_of_imp ?_
    rintro ⟨rfl, rfl | rfl⟩
    · exact hN1 ha
    · exact hN2 ha
  · intro t' i' j' ht' hi' hj'
    dsimp only
    by_cases hc : renL f t' = renL f t ∧ Spec.SameLink dir (f 0 i) (f 0 j) (f 0 i') (f 0 j')
    · rw [if_pos hc]
      left
      have et := renL_inj hinj ht' ht hc.1
      subst et
      rcases hc.2 with ⟨e1, e2⟩ | ⟨hd, e1, e2⟩
      · rw [hinj0 _ _ hi' hi e1, hinj0 _ _ hj' hj e2]
      · rw [hinj0 _ _ hi' hj e1, hinj0 _ _ hj' hi e2]; exact hsym hd _ _ _
    · rw [if_neg hc]
      refine (h2 t' i' j' ht' hi' hj').imp_right fun ⟨hn, e⟩ => ⟨?_, e⟩
      rintro (hd | ⟨rfl, rfl, rfl⟩)
      · exact hn hd
      · exact hc ⟨rfl, .inl ⟨rfl, rfl⟩⟩
  · intro t' i' j' hne
    by_cases hc : t' = renL f t ∧ Spec.SameLink dir (f 0 i) (f 0 j) i' j'
    · rw [if_pos hc] at hne
      rcases hc.2 with ⟨e1, e2⟩ | ⟨hd, e1, e2⟩
      · exact ⟨t, i, j, ht, hi, hj, hc.1, e1, e2, hne⟩
      · exact ⟨t, j, i, ht, hj, hi, hc.1, e1, e2, by rwa [hsym hd]⟩
    · rw [if_neg hc] at hne
      exact h3 t' i' j' hne

/-- the loops over the links -/
theorem relabelLinks {f : Nat → α → α} (h : BuiltX p cs dir z al True S LY NL R) (hcs : cs ≠ [])
    (hself : ∀ s i, LYs cs.length LY s → R s i i = 0)
    (hsym : dir = false → ∀ t i j, R t i j = R t j i)
    (hinj0 : ∀ x y, S x → S y → f 0 x = f 0 y → x = y)
    (hinj : ∀ a, 1 ≤ a → a ≤ cs.length → ∀ x y, LY a x → LY a y → f a x = f a y → x = y)
    (nodeNames : Dict α α) (names : List (Dict α α)) (hnn : ∀ x, dget nodeNames x = f 0 x)
    (hln : ∀ s : List α, s.length = cs.length → renameAll names s = renL f s)
    (hS : ∀ x, S x → S' (f 0 x)) (hLY : ∀ s, LYs cs.length LY s → LYs cs.length LY' (renL f s))
    (hNL : al = false → ∀ x s, s.length = cs.length → NL x s → NL' (f 0 x) (renL f s))
    (hq : BuiltX q cs dir z al True S' LY' NL' (fun _ _ _ => 0)) :
    ∃ q', forE (relabelLayerA p nodeNames names) p.iterLayers q = .ok q' ∧
      Copied q' cs dir z al S' LY' NL' f LY S R (fun t i j => R t i j ≠ 0) := by
  have hpar := h.params hcs
  have hstart : Copied q cs dir z al S' LY' NL' f LY S R (fun _ _ _ => False) :=
    ⟨_, hq, fun _ _ _ _ _ _ => .inr ⟨id, rfl⟩, fun _ _ _ h => absurd rfl h⟩
  obtain ⟨q', e, hq'⟩ := forE_ok (f := relabelLayerA p nodeNames names)
    (P := fun pre q => Copied q cs dir z al S' LY' NL' f LY S R (fun t i j => LKey.ofList t ∈ pre ∧ R t i j ≠ 0)) p.iterLayers
    (hstart.mono (by simp)) (by
      intro pre L post q1 hpre hq1
      obtain ⟨s, rfl, hs⟩ := h.mem_iterLayers hcs (L := L) (by rw [hpre]; simp)
      obtain ⟨c, c1, c2, c3, c4, c5, c6, c7, c8⟩ := h.child hcs hs
      have hon : ∀ x ∈ c.slices.headD [], S x ∧ (al = false → NL x s) := by
        intro x hx
        rw [c7] at hx
        cases al with
        | true => exact ⟨hx, by simp⟩
        | false =>
          simp only [Bool.false_eq_true, if_false] at hx
          exact ⟨(h.onLayer hcs hs.1 hx).1, fun _ => hx⟩
      unfold relabelLayerA
      rw [c1, ofList_toList']
      dsimp only
      -- the nodes
      obtain ⟨q2, e2, hq2⟩ := forE_ok
        (f := fun m i => forE (relabelLinkA p nodeNames names s i) (c.iterTotal [i] none) m)
        (P := fun pre' q => Copied q cs dir z al S' LY' NL' f LY S R
          (fun t i j => (LKey.ofList t ∈ pre ∧ R t i j ≠ 0) ∨ (t = s ∧ i ∈ pre' ∧ R t i j ≠ 0))) (c.slices.headD [])
        (hq1.mono (by simp)) (by
          intro pre' i post' q3 hpre' hq3
          have hi : i ∈ c.slices.headD [] := by rw [hpre']; simp
          obtain ⟨q4, e4, hq4⟩ := forE_ok (f := relabelLinkA p nodeNames names s i)
            (P := fun pre2 q => Copied q cs dir z al S' LY' NL' f LY S R
              (fun t i' j => ((LKey.ofList t ∈ pre ∧ R t i' j ≠ 0) ∨ (t = s ∧ i' ∈ pre' ∧ R t i' j ≠ 0)) ∨
                (t = s ∧ i' = i ∧ [j] ∈ pre2))) (c.iterTotal [i] none)
            (hq3.mono (by simp)) (by
              intro pre2 nl post2 q5 hpre2 hq5
              have hnl : nl ∈ c.iterTotal [i] none := by rw [hpre2]; simp
              rw [MNet.mem_iterTotal c2.l, ← MNet.reads_ne_noEdge c2.l, ← MNet.reads_ne_noEdge c2.l] at hnl
              obtain ⟨j, rfl, hj⟩ : ∃ j, nl = [j] ∧ j ∈ c.slices.headD [] := by
                rcases hnl.1 with hne | hne
                · exact (c2.one c3 hne).2
                · exact (c2.one c3 hne).1
              have hij : i ≠ j := by
                rintro rfl
                rcases hnl.1 with hne | hne <;> exact hne (by rw [c8, c5]; exact hself s i hs)
              have hread : p.view.readItem (i :: j :: s) = .ok (.weight (R s i j)) := by
                rw [View.readItem_addresses (a := i :: s) (b := j :: s) (v := p.view) ⟨by
                  change _ = p.aspects + 1; rw [hpar.1]; simp [hs.1], by
                  change _ = p.aspects + 1; rw [hpar.1]; simp [hs.1], .inr ⟨_, _, _, rfl, rfl, rfl⟩⟩]
                have : p.view.getLink (interleave (i :: s) (j :: s)) = .ok (R s i j) := by
                  change p.getLink _ = _
                  rw [getLink_intra c1 hij, c8]
                rw [this]; rfl
              obtain ⟨q6, e6, hq6⟩ := hq5.set hcs hinj0 hinj hsym hs (hon i hi).1 (hon j hj).1 hij (hLY s hs)
                (hS i (hon i hi).1) (hS j (hon j hj).1) (fun ha => hNL ha i s hs.1 ((hon i hi).2 ha))
                (fun ha => hNL ha j s hs.1 ((hon j hj).2 ha))
              refine ⟨q6, ?_, hq6.mono ?_⟩
              · unfold relabelLinkA
                simp only [hread, Item.num, hnn, hln s hs.1]
                exact e6
              · rintro t i' j' (hd | ⟨rfl, rfl, hj'⟩)
                · exact .inl (.inl hd)
                · simp only [List.mem_append, List.mem_singleton] at hj'
                  rcases hj' with hj' | hj'
                  · exact .inl (.inr ⟨rfl, rfl, hj'⟩)
                  · cases hj'; exact .inr ⟨rfl, rfl, rfl⟩)
          refine ⟨q4, e4, hq4.mono ?_⟩
          rintro t i' j (hd | ⟨rfl, hi', hne⟩)
          · exact .inl (.inl hd)
          · simp only [List.mem_append, List.mem_singleton] at hi'
            rcases hi' with hi' | rfl
            · exact .inl (.inr ⟨rfl, hi', hne⟩)
            · refine .inr ⟨rfl, rfl, (MNet.mem_iterTotal c2.l _ _ _).2 ⟨.inl ?_, trivial⟩⟩
              rw [← MNet.reads_ne_noEdge c2.l, c8, c5]; exact hne)
      refine ⟨q2, e2, hq2.mono ?_⟩
      rintro t i j ⟨ht, hne⟩
      simp only [List.mem_append, List.mem_singleton] at ht
      rcases ht with ht | ht
      · exact .inl ⟨ht, hne⟩
      · have := ofList_inj' ht
        subst this
        rw [← c8, ← c5] at hne
        obtain ⟨⟨x, ex, hx⟩, -⟩ := c2.one c3 hne
        cases ex
        rw [c8, c5] at hne
        exact .inr ⟨rfl, hx, hne⟩)
  refine ⟨q', e, ?_⟩
  obtain ⟨R', h1, h2, h3⟩ := hq'
  refine ⟨R', h1, fun t i j ht hi hj => (h2 t i j ht hi hj).imp_right fun ⟨hn, e⟩ => ⟨fun hne => hn ⟨h.mem_iterLayers' hcs ht, hne⟩, e⟩, h3⟩

end links

/-- a loop all of whose steps succeed or raise `e`, and that has a step that raises it -/
theorem forE_stop {σ β : Type} {f : σ → β → Except Err σ} {P : σ → Prop} {e : Err} (l : List β) {s : σ} (h0 : P s)
    (hstep : ∀ b ∈ l, ∀ s, P s → (∃ s', f s b = .ok s' ∧ P s') ∨ f s b = .error e)
    (hbad : ∃ b ∈ l, ∀ s, P s → f s b = .error e) : forE f l s = .error e := by
  induction l generalizing s with
  | nil => obtain ⟨b, hb, -⟩ := hbad; simp at hb
  | cons b l ih =>
    rcases hstep b (by simp) s h0 with ⟨s', h1, h2⟩ | h1
    · simp only [forE, h1]
      refine ih h2 (fun c hc => hstep c (by simp [hc])) ?_
      obtain ⟨c, hc, hb⟩ := hbad
      simp only [List.mem_cons] at hc
      rcases hc with rfl | hc
      · rw [hb s h0] at h1; cases h1
      · exact ⟨c, hc, hb⟩
    · simp only [forE, h1]

/-- a loop all of whose steps succeed or raise `e` -/
theorem forE_either {σ β : Type} {f : σ → β → Except Err σ} {P : σ → Prop} {e : Err} (l : List β) {s : σ} (h0 : P s)
    (hstep : ∀ b ∈ l, ∀ s, P s → (∃ s', f s b = .ok s' ∧ P s') ∨ f s b = .error e) :
    (∃ s', forE f l s = .ok s' ∧ P s') ∨ forE f l s = .error e := by
  induction l generalizing s with
  | nil => exact .inl ⟨s, rfl, h0⟩
  | cons b l ih =>
    rcases hstep b (by simp) s h0 with ⟨s', h1, h2⟩ | h1
    · simp only [forE, h1]
      exact ih h2 (fun c hc => hstep c (by simp [hc]))
    · simp only [forE, h1, reduceCtorEq, false_and, exists_false, or_true]

end Pymnet
