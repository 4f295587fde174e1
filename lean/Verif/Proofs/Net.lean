import Verif.Model.Net
import Verif.Spec.Net

/-! Helper lemmas about the model of `MultilayerNetwork`: the state invariant and the effect of every
mutating call. -/

set_option linter.unusedSectionVars false
set_option linter.unusedSimpArgs false
set_option linter.unnecessarySimpa false

namespace Pymnet

open Py

variable {α W : Type} [DecidableEq α] [DecidableEq W]

/-! ### Tuples -/

theorem interleave_eq_link (u v : List α) : interleave u v = Spec.link u v := by
  induction u generalizing v with
  | nil => cases v <;> simp [interleave, Spec.link]
  | cons a u ih =>
    cases v with
    | nil => simp [interleave, Spec.link]
    | cons b v => simp [interleave, ih, Spec.link]

theorem evens_interleave {u v : List α} (h : u.length = v.length) : evens (interleave u v) = u := by
  induction u generalizing v with
  | nil => cases v <;> simp [interleave, evens]
  | cons a u ih =>
    cases v with
    | nil => simp at h
    | cons b v => simp at h; simp [interleave, evens, ih h]

theorem odds_interleave {u v : List α} (h : u.length = v.length) : odds (interleave u v) = v := by
  induction u generalizing v with
  | nil => cases v <;> simp_all [interleave, odds]
  | cons a u ih =>
    cases v with
    | nil => simp at h
    | cons b v => simp at h; simp [interleave, odds, ih h]

theorem linkToNodes_interleave {u v : List α} (h : u.length = v.length) (hu : u ≠ []) :
    linkToNodes (interleave u v) = .ok (u, v) := by
  cases u with
  | nil => exact absurd rfl hu
  | cons a u =>
    cases v with
    | nil => simp at h
    | cons b v =>
      simp at h
      simp [interleave, linkToNodes, evens_interleave h, odds_interleave h]

theorem length_interleave {u v : List α} (h : u.length = v.length) :
    (interleave u v).length = 2 * u.length := by
  induction u generalizing v with
  | nil => cases v <;> simp [interleave]
  | cons a u ih =>
    cases v with
    | nil => simp at h
    | cons b v => simp at h; simp [interleave, ih h]; omega

theorem exists_interleave (l : List α) (n : Nat) (h : l.length = 2 * n) :
    l = interleave (evens l) (odds l) ∧ (evens l).length = n ∧ (odds l).length = n := by
  induction n generalizing l with
  | zero => cases l <;> simp_all [interleave, evens, odds]
  | succ n ih =>
    match l, h with
    | a :: b :: t, h =>
      have := ih t (by simp at h; omega)
      simp only [evens, odds, interleave, List.length_cons]
      exact ⟨by rw [← this.1], by omega, by omega⟩

theorem flatMap_dup (s : List α) : (s.flatMap fun k => [k, k]) = interleave s s := by
  induction s with
  | nil => rfl
  | cons a s ih => simp [interleave, ih]

theorem shortLinkToLink_cons (i j : α) (s : List α) :
    shortLinkToLink (i :: j :: s) = interleave (i :: s) (j :: s) := by
  simp [shortLinkToLink, flatMap_dup, interleave]

theorem interleave_inj {u v u' v' : List α} (h : u.length = v.length) (h' : u'.length = v'.length)
    (e : interleave u v = interleave u' v') : u = u' ∧ v = v' := by
  have h1 := congrArg evens e
  have h2 := congrArg odds e
  rw [evens_interleave h, evens_interleave h'] at h1
  rw [odds_interleave h, odds_interleave h'] at h2
  exact ⟨h1, h2⟩

/-- the link the code builds from an index tuple of acceptable length -/
def linkOf (aspects : Nat) (item : List α) : List α :=
  if item.length = 2 * (aspects + 1) then item else shortLinkToLink item

/-- an index tuple of acceptable length addresses exactly one pair of node-layers -/
theorem addresses_iff {aspects : Nat} {item u v : List α} :
    Spec.Addresses aspects item u v ↔
      u.length = aspects + 1 ∧ v.length = aspects + 1 ∧
      (item.length = 2 * (aspects + 1) ∨ item.length = aspects + 2) ∧
      linkOf aspects item = interleave u v := by
  unfold Spec.Addresses linkOf
  constructor
  · rintro ⟨hu, hv, h⟩
    refine ⟨hu, hv, ?_⟩
    rcases h with h | ⟨i, j, s, rfl, rfl, rfl⟩
    · rw [← interleave_eq_link] at h
      have : item.length = 2 * (aspects + 1) := by
        rw [h, length_interleave (by omega), hu]
      exact ⟨Or.inl this, by rw [if_pos this, h]⟩
    · refine ⟨Or.inr (by simpa using hu), ?_⟩
      split
      · rename_i h
        simp at h hu
        have : s = [] := by
          have : s.length = 0 := by omega
          exact List.length_eq_zero_iff.1 this
        subst this; simp [interleave]
      · exact shortLinkToLink_cons i j s
  · rintro ⟨hu, hv, hl, h⟩
    refine ⟨hu, hv, ?_⟩
    split at h
    · left; rw [h, interleave_eq_link]
    · rename_i hne
      have hl : item.length = aspects + 2 := by omega
      match item, hl with
      | i :: j :: s, hl =>
        rw [shortLinkToLink_cons] at h
        simp at hl
        have := interleave_inj (by simp) (by omega) h
        exact Or.inr ⟨i, j, s, this.1.symm, this.2.symm, rfl⟩

theorem exists_addresses {aspects : Nat} {item : List α}
    (h : item.length = 2 * (aspects + 1) ∨ item.length = aspects + 2) :
    ∃ u v, Spec.Addresses aspects item u v := by
  simp only [addresses_iff, h, true_and]
  by_cases h1 : item.length = 2 * (aspects + 1)
  · have := exists_interleave item _ h1
    exact ⟨_, _, this.2.1, this.2.2, by simp only [linkOf, if_pos h1]; exact this.1⟩
  · have hl : item.length = aspects + 2 := by omega
    match item, hl, h1 with
    | i :: j :: s, hl, h1 =>
      simp at hl
      exact ⟨i :: s, j :: s, by simp [hl], by simp [hl], by
        simp only [linkOf, if_neg h1, shortLinkToLink_cons]⟩

theorem addresses_unique {aspects : Nat} {item u v u' v' : List α}
    (h : Spec.Addresses aspects item u v) (h' : Spec.Addresses aspects item u' v') :
    u = u' ∧ v = v' := by
  rw [addresses_iff] at h h'
  exact interleave_inj (by omega) (by omega) (h.2.2.2.symm.trans h'.2.2.2)

theorem addresses_length {aspects : Nat} {item u v : List α} (h : Spec.Addresses aspects item u v) :
    item.length = 2 * (aspects + 1) ∨ item.length = aspects + 2 := (addresses_iff.1 h).2.2.1

/-! ### Outcomes -/

@[simp] theorem Outcome.andThen_ok {σ : Type} (s : σ) (f : σ → Outcome σ) :
    Outcome.andThen (s, none) f = f s := rfl

@[simp] theorem Outcome.andThen_err {σ : Type} (s : σ) (e : Err) (f : σ → Outcome σ) :
    Outcome.andThen (s, some e) f = (s, some e) := rfl

theorem Outcome.andThen_of_eq {σ : Type} {r : Outcome σ} (h : r.2 = none) (f : σ → Outcome σ) :
    r.andThen f = f r.1 := by
  obtain ⟨s, e⟩ := r; simp at h; subst h; rfl

namespace MNet

/-- stored value of the link `a → b` -/
def lk (m : MNet α W) (a b : List α) : Option W := get2 m.net a b

/-- stored value in the reversed dictionary -/
def rlk (m : MNet α W) (a b : List α) : Option W := get2 m.rnet a b

/-- `layer in _nodeToLayers[node]` -/
def onLayer (m : MNet α W) (n : α) (L : LKey α) : Prop :=
  L ∈ (Dict.get m.nodeToLayers n).getD []

/-- `x in slices[a]` -/
def inSlice (m : MNet α W) (a : Nat) (x : α) : Prop := ∃ s, m.slices[a]? = some s ∧ x ∈ s

/-- `nl` is built from registered nodes and elementary layers -/
def Reg (m : MNet α W) (nl : List α) : Prop :=
  nl.length = m.aspects + 1 ∧ ∀ i x, nl[i]? = some x → m.inSlice i x

/-- Registry part of the state invariant of a reachable `MultilayerNetwork`. -/
structure RInv (m : MNet α W) : Prop where
  slen : m.slices.length = m.aspects + 1
  snodup : ∀ s ∈ m.slices, s.Nodup
  fic0 : m.aspects = 0 → m.fic = true
  n2l : ∀ n L, m.onLayer n L ↔ n ∈ (Dict.get m.layerToNodes L).getD []
  n2lnodup : ∀ n, ((Dict.get m.nodeToLayers n).getD []).Nodup
  l2nnodup : ∀ L, ((Dict.get m.layerToNodes L).getD []).Nodup
  nlreg : ∀ n L, m.onLayer n L → m.inSlice 0 n ∧ ∀ i x, L.toList[i]? = some x → m.inSlice (i + 1) x
  nlkind : ∀ n L, m.onLayer n L → m.fic = false ∧
    ((m.aspects = 1 ∧ ∃ a, L = .el a) ∨ (2 ≤ m.aspects ∧ ∃ l, L = .tup l ∧ l.length ≤ m.aspects))

/-- Link part of the state invariant. -/
structure LInv (m : MNet α W) : Prop where
  wf : WF2 m.net
  rwf : WF2 m.rnet
  sym : m.directed = false → ∀ a b, m.lk a b = m.lk b a
  mirror : m.directed = true → ∀ a b, m.rlk b a = m.lk a b
  rkeys : m.directed = true → ∀ a, (Dict.get m.rnet a).isSome = (Dict.get m.net a).isSome
  val : ∀ a b w, m.lk a b = some w → w ≠ m.noEdge
  tkeys : m.directed = true → ∀ a b w, m.lk a b = some w →
    (Dict.get m.totalDegree a).isSome = true ∧ (Dict.get m.totalDegree b).isSome = true

/-- State invariant of a reachable `MultilayerNetwork`. -/
structure Inv (m : MNet α W) : Prop where
  r : m.RInv
  l : m.LInv
  reg : ∀ a b w, m.lk a b = some w → m.Reg a ∧ m.Reg b
  edgeNl : m.fic = false → ∀ a b w, m.lk a b = some w →
    (∃ n t, a = n :: t ∧ m.onLayer n (.ofList t)) ∧ (∃ n t, b = n :: t ∧ m.onLayer n (.ofList t))

/-- only the registries differ -/
def RFrame (m m' : MNet α W) : Prop :=
  m' = { m with slices := m'.slices, layerToNodes := m'.layerToNodes, nodeToLayers := m'.nodeToLayers }

/-- only the stored links differ -/
def LFrame (m m' : MNet α W) : Prop :=
  m' = { m with net := m'.net, rnet := m'.rnet, totalDegree := m'.totalDegree }

theorem RFrame.refl (m : MNet α W) : RFrame m m := rfl

theorem RFrame.trans {m m' m'' : MNet α W} (h : RFrame m m') (h' : RFrame m' m'') : RFrame m m'' := by
  unfold RFrame at *; rw [h'] ; rw [h]

theorem LFrame.refl (m : MNet α W) : LFrame m m := rfl

theorem LFrame.trans {m m' m'' : MNet α W} (h : LFrame m m') (h' : LFrame m' m'') : LFrame m m'' := by
  unfold LFrame at *; rw [h'] ; rw [h]

/-! ### Registries -/

theorem sliceAdd_rframe (m : MNet α W) (a : Nat) (x : α) : RFrame m (m.sliceAdd a x).1 := by
  unfold sliceAdd; split <;> rfl

theorem sliceAdd_err (m : MNet α W) (a : Nat) (x : α) :
    (m.sliceAdd a x).2 = if a < m.slices.length then none else some .indexError := by
  unfold sliceAdd; split <;> rfl

theorem sliceAdd_length (m : MNet α W) (a : Nat) (x : α) :
    (m.sliceAdd a x).1.slices.length = m.slices.length := by
  unfold sliceAdd; split <;> simp

theorem sliceAdd_other (m : MNet α W) (a : Nat) (x : α) :
    (m.sliceAdd a x).1.nodeToLayers = m.nodeToLayers ∧
    (m.sliceAdd a x).1.layerToNodes = m.layerToNodes := by
  unfold sliceAdd; split <;> simp

theorem sliceAdd_inSlice (m : MNet α W) (a : Nat) (x : α) (b : Nat) (y : α) :
    (m.sliceAdd a x).1.inSlice b y ↔ m.inSlice b y ∨ (b = a ∧ y = x ∧ a < m.slices.length) := by
  unfold sliceAdd inSlice
  split
  · rename_i h
    simp only [List.getElem?_modify]
    by_cases hb : a = b
    · subst hb
      obtain ⟨s, hs⟩ : ∃ s, m.slices[a]? = some s := ⟨_, List.getElem?_eq_getElem h⟩
      simp [hs, h]
    · have : ¬ b = a := fun e => hb e.symm
      simp [hb, this]
  · rename_i h
    simp [h]

theorem sliceAdd_nodup (m : MNet α W) (a : Nat) (x : α) (h : ∀ s ∈ m.slices, s.Nodup) :
    ∀ s ∈ (m.sliceAdd a x).1.slices, s.Nodup := by
  unfold sliceAdd; split
  · intro s hs
    simp only at hs
    obtain ⟨i, hi⟩ := List.mem_iff_getElem?.1 hs
    rw [List.getElem?_modify] at hi
    cases e : m.slices[i]? with
    | none => simp [e] at hi
    | some t =>
      have ht : t.Nodup := h t (List.mem_iff_getElem?.2 ⟨i, e⟩)
      simp [e] at hi; subst hi
      split
      · exact nodup_sadd ht x
      · exact ht
  · exact h


theorem addElemLayers_spec (ls : List α) (m : MNet α W) (a : Nat) :
    RFrame m (m.addElemLayers ls a).1 ∧
    (m.addElemLayers ls a).1.slices.length = m.slices.length ∧
    (m.addElemLayers ls a).1.nodeToLayers = m.nodeToLayers ∧
    (m.addElemLayers ls a).1.layerToNodes = m.layerToNodes ∧
    ((∀ s ∈ m.slices, s.Nodup) → ∀ s ∈ (m.addElemLayers ls a).1.slices, s.Nodup) ∧
    (∀ b y, (m.addElemLayers ls a).1.inSlice b y ↔
      m.inSlice b y ∨ (a ≤ b ∧ b < m.slices.length ∧ ls[b - a]? = some y)) ∧
    ((m.addElemLayers ls a).2 = none ↔ ls = [] ∨ a + ls.length ≤ m.slices.length) := by
  induction ls generalizing m a with
  | nil => simp [addElemLayers, RFrame.refl]
  | cons l ls ih =>
    unfold addElemLayers
    cases hs : m.slices[a]? with
    | none =>
      have hlen : m.slices.length ≤ a := List.getElem?_eq_none_iff.1 hs
      refine ⟨RFrame.refl m, rfl, rfl, rfl, fun h => h, ?_, ?_⟩
      · intro b y; constructor
        · exact Or.inl
        · rintro (h | h)
          · exact h
          · omega
      · simp; omega
    | some s =>
      have hlen : a < m.slices.length := (List.getElem?_eq_some_iff.1 hs).1
      have key : ∀ m' : MNet α W, m'.slices.length = m.slices.length →
          (∀ b y, m'.inSlice b y ↔ m.inSlice b y ∨ (b = a ∧ y = l)) →
          ∀ b y, (m'.addElemLayers ls (a + 1)).1.inSlice b y ↔
            m.inSlice b y ∨ (a ≤ b ∧ b < m.slices.length ∧ (l :: ls)[b - a]? = some y) := by
        intro m' hl hin b y
        rw [((ih m' (a + 1)).2.2.2.2.2.1) b y, hin, hl]
        by_cases hb : b = a
        · subst hb; simp only [Nat.sub_self, List.getElem?_cons_zero]
          constructor
          · rintro ((h | ⟨_, rfl⟩) | h)
            · exact Or.inl h
            · exact Or.inr ⟨Nat.le_refl _, hlen, rfl⟩
            · omega
          · rintro (h | ⟨_, _, h⟩)
            · exact Or.inl (Or.inl h)
            · cases h; exact Or.inl (Or.inr ⟨trivial, rfl⟩)
        · constructor
          · rintro ((h | h) | ⟨h1, h2, h3⟩)
            · exact Or.inl h
            · exact absurd h.1 hb
            · refine Or.inr ⟨by omega, h2, ?_⟩
              have : b - a = (b - (a + 1)) + 1 := by omega
              rw [this, List.getElem?_cons_succ]; exact h3
          · rintro (h | ⟨h1, h2, h3⟩)
            · exact Or.inl (Or.inl h)
            · refine Or.inr ⟨by omega, h2, ?_⟩
              have : b - a = (b - (a + 1)) + 1 := by omega
              rw [this, List.getElem?_cons_succ] at h3; exact h3
      by_cases hl : l ∈ s
      · simp only [hl, if_true]
        obtain ⟨i1, i2, i3, i4, i5, i6, i7⟩ := ih m (a + 1)
        refine ⟨i1, i2, i3, i4, i5, key m rfl ?_, ?_⟩
        · intro b y; constructor
          · exact Or.inl
          · rintro (h | ⟨rfl, rfl⟩)
            · exact h
            · exact ⟨s, hs, hl⟩
        · rw [i7]; simp only [List.length_cons, reduceCtorEq, false_or]
          constructor
          · rintro (rfl | h)
            · simp; omega
            · omega
          · intro h; right; omega
      · simp only [hl, if_false]
        rw [Outcome.andThen_of_eq (by rw [sliceAdd_err, if_pos hlen])]
        obtain ⟨i1, i2, i3, i4, i5, i6, i7⟩ := ih (m.sliceAdd a l).1 (a + 1)
        have ho := sliceAdd_other m a l
        refine ⟨(sliceAdd_rframe m a l).trans i1, by rw [i2, sliceAdd_length], by rw [i3, ho.1],
          by rw [i4, ho.2], fun h => i5 (sliceAdd_nodup m a l h), key _ (sliceAdd_length m a l) ?_, ?_⟩
        · intro b y; rw [sliceAdd_inSlice]; simp [hlen]
        · rw [i7, sliceAdd_length]; simp only [List.length_cons, reduceCtorEq, false_or]
          constructor
          · rintro (rfl | h)
            · simp; omega
            · omega
          · intro h; right; omega

theorem addNodeToLayer_onLayer (m : MNet α W) (n : α) (L : LKey α) (n' : α) (L' : LKey α) :
    (m.addNodeToLayer n L).onLayer n' L' ↔ m.onLayer n' L' ∨ (n' = n ∧ L' = L) := by
  unfold addNodeToLayer onLayer
  simp only [Dict.get_set]
  by_cases h : n = n'
  · subst h; simp
  · have : ¬ n' = n := fun e => h e.symm
    simp [h, this]

/-- the layer argument of `add_node` is acted upon -/
def Accepts (m : MNet α W) : LKey α → Prop
  | .el _ => m.fic = false ∧ m.aspects = 1
  | .tup l => m.fic = false ∧ 2 ≤ m.aspects ∧ l.length ≤ m.aspects

/-- the layer argument of `add_node` is looked at (some elementary layers may be added even if the
call fails later) -/
def Considers (m : MNet α W) : LKey α → Prop
  | .el _ => m.fic = false ∧ m.aspects = 1
  | .tup _ => m.fic = false ∧ 2 ≤ m.aspects

theorem addNode_spec (m : MNet α W) (n : α) (layer : Option (LKey α))
    (hlen : m.slices.length = m.aspects + 1) :
    RFrame m (m.addNode n layer).1 ∧
    (m.addNode n layer).1.slices.length = m.slices.length ∧
    ((∀ s ∈ m.slices, s.Nodup) → ∀ s ∈ (m.addNode n layer).1.slices, s.Nodup) ∧
    (∀ b y, (m.addNode n layer).1.inSlice b y ↔ m.inSlice b y ∨ (b = 0 ∧ y = n) ∨
      ∃ L, layer = some L ∧ m.Considers L ∧ 1 ≤ b ∧ b ≤ m.aspects ∧ L.toList[b - 1]? = some y) ∧
    ((∃ L, layer = some L ∧ m.Accepts L ∧ ∃ m0 : MNet α W,
        m0.nodeToLayers = m.nodeToLayers ∧ m0.layerToNodes = m.layerToNodes ∧
        (m.addNode n layer).1 = m0.addNodeToLayer n L) ∨
     ((∀ L, layer = some L → ¬ m.Accepts L) ∧
        (m.addNode n layer).1.nodeToLayers = m.nodeToLayers ∧
        (m.addNode n layer).1.layerToNodes = m.layerToNodes)) ∧
    ((m.addNode n layer).2 = none ↔ m.fic = true ∨ ∀ L, layer = some L → m.Accepts L) := by
  have h0 : (m.sliceAdd 0 n).2 = none := by rw [sliceAdd_err, if_pos (by omega)]
  have hf := sliceAdd_rframe m 0 n
  have hin := sliceAdd_inSlice m 0 n
  have hl0 := sliceAdd_length m 0 n
  have hnd := sliceAdd_nodup m 0 n
  have ho := sliceAdd_other m 0 n
  unfold addNode
  rw [Outcome.andThen_of_eq h0]
  set m1 := (m.sliceAdd 0 n).1 with hm1
  have hpos : 0 < m.slices.length := by omega
  have hin0 : ∀ b y, m1.inSlice b y ↔ m.inSlice b y ∨ (b = 0 ∧ y = n) := by
    intro b y; rw [hin]; simp [hpos]
  have hfic : m1.fic = m.fic := by rw [hf]
  have hasp : m1.aspects = m.aspects := by rw [hf]
  -- the case where the layer argument is walked through
  have walk : ∀ (L : LKey α) (ls : List α), L.toList = ls → m.Considers L →
      (m.Accepts L ↔ ls.length ≤ m.aspects) →
      ∀ r, r = (m1.addElemLayers ls 1).andThen (fun m => (m.addNodeToLayer n L, none)) →
      RFrame m r.1 ∧ r.1.slices.length = m.slices.length ∧
      ((∀ s ∈ m.slices, s.Nodup) → ∀ s ∈ r.1.slices, s.Nodup) ∧
      (∀ b y, r.1.inSlice b y ↔ m.inSlice b y ∨ (b = 0 ∧ y = n) ∨
        ∃ L', some L = some L' ∧ m.Considers L' ∧ 1 ≤ b ∧ b ≤ m.aspects ∧
          L'.toList[b - 1]? = some y) ∧
      ((∃ L', some L = some L' ∧ m.Accepts L' ∧ ∃ m0 : MNet α W,
          m0.nodeToLayers = m.nodeToLayers ∧ m0.layerToNodes = m.layerToNodes ∧
          r.1 = m0.addNodeToLayer n L') ∨
       ((∀ L', some L = some L' → ¬ m.Accepts L') ∧
          r.1.nodeToLayers = m.nodeToLayers ∧ r.1.layerToNodes = m.layerToNodes)) ∧
      (r.2 = none ↔ m.fic = true ∨ ∀ L', some L = some L' → m.Accepts L') := by
    intro L ls hls hcons hacc r hr
    have hficf : m.fic = false := by cases L <;> exact hcons.1
    have haspp : 1 ≤ m.aspects := by
      cases L with
      | el a => have := hcons.2; omega
      | tup l => have := hcons.2; omega
    obtain ⟨e1, e2, e3, e4, e5, e6, e7⟩ := addElemLayers_spec ls m1 1
    have hinE : ∀ b y, (m1.addElemLayers ls 1).1.inSlice b y ↔ m.inSlice b y ∨ (b = 0 ∧ y = n) ∨
        ∃ L', some L = some L' ∧ m.Considers L' ∧ 1 ≤ b ∧ b ≤ m.aspects ∧
          L'.toList[b - 1]? = some y := by
      intro b y
      rw [e6, hin0, hl0, hlen, or_assoc]
      refine or_congr_right (or_congr_right ?_)
      constructor
      · rintro ⟨h1, h2, h3⟩; exact ⟨L, rfl, hcons, h1, by omega, by rw [hls]; exact h3⟩
      · rintro ⟨L', h, _, h1, h2, h3⟩
        cases h; rw [hls] at h3; exact ⟨h1, by omega, h3⟩
    by_cases herr : (m1.addElemLayers ls 1).2 = none
    · rw [Outcome.andThen_of_eq herr] at hr
      subst hr
      have hA : m.Accepts L := by
        rw [hacc]
        rcases e7.1 herr with h | h
        · simp [h]
        · rw [hl0, hlen] at h; omega
      refine ⟨hf.trans (e1.trans rfl), by rw [← hl0]; exact e2, fun h => e5 (hnd h), hinE, ?_, ?_⟩
      · exact Or.inl ⟨L, rfl, hA, _, by rw [e3, ho.1], by rw [e4, ho.2], rfl⟩
      · simp only [true_iff]
        right; intro L' h; cases h; exact hA
    · have hA : ¬ m.Accepts L := by
        rw [hacc]; intro h
        apply herr; rw [e7]; right; rw [hl0, hlen]; omega
      have hr' : r.1 = (m1.addElemLayers ls 1).1 ∧ r.2 ≠ none := by
        revert herr hr
        rcases (m1.addElemLayers ls 1) with ⟨s, _ | e⟩ <;> intro hr herr
        · simp at herr
        · rw [hr]; simp
      rw [hr'.1]
      refine ⟨hf.trans e1, by rw [← hl0]; exact e2, fun h => e5 (hnd h), hinE, ?_, ?_⟩
      · exact Or.inr ⟨fun L' h => by cases h; exact hA, by rw [e3, ho.1], by rw [e4, ho.2]⟩
      · constructor
        · intro h; exact absurd h hr'.2
        · rintro (h | h)
          · rw [hficf] at h; cases h
          · exact absurd (h L rfl) hA
  -- the cases where the layer argument is ignored or rejected
  have skip : ∀ (lay : Option (LKey α)) (e : Option Err), (∀ L, lay = some L → ¬ m.Considers L) →
      (e = none ↔ m.fic = true ∨ lay = none) →
      ∀ r, r = ((m1, e) : Outcome (MNet α W)) →
      RFrame m r.1 ∧ r.1.slices.length = m.slices.length ∧
      ((∀ s ∈ m.slices, s.Nodup) → ∀ s ∈ r.1.slices, s.Nodup) ∧
      (∀ b y, r.1.inSlice b y ↔ m.inSlice b y ∨ (b = 0 ∧ y = n) ∨
        ∃ L', lay = some L' ∧ m.Considers L' ∧ 1 ≤ b ∧ b ≤ m.aspects ∧
          L'.toList[b - 1]? = some y) ∧
      ((∃ L', lay = some L' ∧ m.Accepts L' ∧ ∃ m0 : MNet α W,
          m0.nodeToLayers = m.nodeToLayers ∧ m0.layerToNodes = m.layerToNodes ∧
          r.1 = m0.addNodeToLayer n L') ∨
       ((∀ L', lay = some L' → ¬ m.Accepts L') ∧
          r.1.nodeToLayers = m.nodeToLayers ∧ r.1.layerToNodes = m.layerToNodes)) ∧
      (r.2 = none ↔ m.fic = true ∨ ∀ L', lay = some L' → m.Accepts L') := by
    intro lay e hcons he r hr
    have hA : ∀ L, lay = some L → ¬ m.Accepts L := by
      intro L hL hacc
      apply hcons L hL
      cases L with
      | el a => exact hacc
      | tup l => exact ⟨hacc.1, hacc.2.1⟩
    subst hr
    refine ⟨hf, hl0, hnd, ?_, Or.inr ⟨hA, ho.1, ho.2⟩, ?_⟩
    · intro b y; rw [hin0]
      constructor
      · rintro (h | h)
        · exact Or.inl h
        · exact Or.inr (Or.inl h)
      · rintro (h | h | ⟨L, h1, h2, _⟩)
        · exact Or.inl h
        · exact Or.inr h
        · exact absurd h2 (hcons L h1)
    · rw [he]
      refine or_congr_right ?_
      constructor
      · rintro rfl L hL; cases hL
      · intro h
        cases lay with
        | none => rfl
        | some L => exact absurd (h L rfl) (hA L rfl)
  cases layer with
  | none => exact skip none none (by simp) (by simp) _ rfl
  | some L =>
    simp only [hfic]
    cases hfc : m.fic with
    | true =>
      simp only [if_true]
      have := skip (some L) none (by
        intro L' h hc; cases L' <;> exact absurd hc.1 (by simp [hfc])) (by simp [hfc]) _ rfl
      simpa [hfc] using this
    | false =>
      simp only [Bool.false_eq_true, if_false, hasp]
      cases L with
      | tup l =>
        simp only
        by_cases ha : 2 ≤ m.aspects
        · rw [if_pos ha]
          have := walk (.tup l) l rfl ⟨hfc, ha⟩ (by simp [Accepts, hfc, ha]) _ rfl
          simpa [hfc] using this
        · rw [if_neg ha]
          have := skip (some (.tup l)) (some .assertionError) (by
            intro L' h hc; cases h; exact ha hc.2) (by simp [hfc]) _ rfl
          simpa [hfc] using this
      | el a =>
        simp only
        by_cases ha : m.aspects = 1
        · rw [if_pos ha]
          have := walk (.el a) [a] rfl ⟨hfc, ha⟩ (by simp [Accepts, hfc, ha]) _ rfl
          simpa [hfc] using this
        · rw [if_neg ha]
          have := skip (some (.el a)) (some .assertionError) (by
            intro L' h hc; cases h; exact ha hc.2) (by simp [hfc]) _ rfl
          simpa [hfc] using this


/-- registries only grow and links are untouched -/
structure Grows (m m' : MNet α W) : Prop where
  frame : RFrame m m'
  slices : ∀ b y, m.inSlice b y → m'.inSlice b y
  layers : ∀ n L, m.onLayer n L → m'.onLayer n L

theorem Grows.refl (m : MNet α W) : Grows m m := ⟨RFrame.refl m, fun _ _ h => h, fun _ _ h => h⟩

theorem Grows.trans {m m' m'' : MNet α W} (h : Grows m m') (h' : Grows m' m'') : Grows m m'' :=
  ⟨h.frame.trans h'.frame, fun b y x => h'.slices b y (h.slices b y x),
   fun n L x => h'.layers n L (h.layers n L x)⟩

theorem RFrame.fields {m m' : MNet α W} (h : RFrame m m') :
    m'.aspects = m.aspects ∧ m'.directed = m.directed ∧ m'.noEdge = m.noEdge ∧ m'.fic = m.fic ∧
    m'.net = m.net ∧ m'.rnet = m.rnet ∧ m'.totalDegree = m.totalDegree := by
  rw [h]; simp

theorem LFrame.fields {m m' : MNet α W} (h : LFrame m m') :
    m'.aspects = m.aspects ∧ m'.directed = m.directed ∧ m'.noEdge = m.noEdge ∧ m'.fic = m.fic ∧
    m'.slices = m.slices ∧ m'.layerToNodes = m.layerToNodes ∧ m'.nodeToLayers = m.nodeToLayers := by
  rw [h]; simp

theorem Inv.of_grows {m m' : MNet α W} (h : m.Inv) (g : Grows m m') (hr : m'.RInv) : m'.Inv := by
  obtain ⟨f1, f2, f3, f4, f5, f6, f7⟩ := g.frame.fields
  have hlk : ∀ a b, m'.lk a b = m.lk a b := by intro a b; simp [lk, f5]
  have hrlk : ∀ a b, m'.rlk a b = m.rlk a b := by intro a b; simp [rlk, f6]
  have hreg : ∀ nl, m.Reg nl → m'.Reg nl := by
    intro nl ⟨h1, h2⟩
    exact ⟨by rw [f1]; exact h1, fun i x hx => g.slices i x (h2 i x hx)⟩
  refine ⟨hr, ⟨by rw [f5]; exact h.l.wf, by rw [f6]; exact h.l.rwf, ?_, ?_, ?_, ?_, ?_⟩, ?_, ?_⟩
  · rw [f2]; intro hd a b; rw [hlk, hlk]; exact h.l.sym hd a b
  · rw [f2]; intro hd a b; rw [hlk, hrlk]; exact h.l.mirror hd a b
  · rw [f2]; intro hd a; rw [f5, f6]; exact h.l.rkeys hd a
  · intro a b w; rw [hlk, f3]; exact h.l.val a b w
  · rw [f2]; intro hd a b w; rw [hlk, f7]; exact h.l.tkeys hd a b w
  · intro a b w; rw [hlk]; intro hw
    exact ⟨hreg a (h.reg a b w hw).1, hreg b (h.reg a b w hw).2⟩
  · rw [f4]; intro hf a b w; rw [hlk]; intro hw
    obtain ⟨⟨n, t, e1, e2⟩, ⟨n', t', e3, e4⟩⟩ := h.edgeNl hf a b w hw
    exact ⟨⟨n, t, e1, g.layers _ _ e2⟩, ⟨n', t', e3, g.layers _ _ e4⟩⟩

theorem sliceAdd_rinv {m : MNet α W} (h : m.RInv) (a : Nat) (x : α) : (m.sliceAdd a x).1.RInv := by
  obtain ⟨f1, f2, f3, f4, -, -, -⟩ := (sliceAdd_rframe m a x).fields
  have ho := sliceAdd_other m a x
  have hon : ∀ n L, (m.sliceAdd a x).1.onLayer n L ↔ m.onLayer n L := by
    intro n L; simp [onLayer, ho.1]
  refine ⟨by rw [sliceAdd_length, f1]; exact h.slen, sliceAdd_nodup m a x h.snodup,
    by rw [f1, f4]; exact h.fic0, ?_, ?_, ?_, ?_, ?_⟩
  · intro n L; rw [hon, ho.2]; exact h.n2l n L
  · rw [ho.1]; exact h.n2lnodup
  · rw [ho.2]; exact h.l2nnodup
  · intro n L; rw [hon]; intro hn
    obtain ⟨h1, h2⟩ := h.nlreg n L hn
    exact ⟨(sliceAdd_inSlice ..).2 (Or.inl h1), fun i y hy => (sliceAdd_inSlice ..).2 (Or.inl (h2 i y hy))⟩
  · intro n L; rw [hon, f1, f4]; exact h.nlkind n L

theorem sliceAdd_grows (m : MNet α W) (a : Nat) (x : α) : Grows m (m.sliceAdd a x).1 :=
  ⟨sliceAdd_rframe m a x, fun _ _ h => (sliceAdd_inSlice ..).2 (Or.inl h), fun n L h => by
    simpa [onLayer, (sliceAdd_other m a x).1] using h⟩

theorem addNode_onLayer {m : MNet α W} (h : m.slices.length = m.aspects + 1) (n : α)
    (layer : Option (LKey α)) (n' : α) (L' : LKey α) :
    (m.addNode n layer).1.onLayer n' L' ↔
      m.onLayer n' L' ∨ (n' = n ∧ layer = some L' ∧ m.Accepts L') := by
  obtain ⟨-, -, -, -, h5, -⟩ := addNode_spec m n layer h
  rcases h5 with ⟨L, rfl, hA, m0, e1, e2, e3⟩ | ⟨hA, e1, e2⟩
  · rw [e3, addNodeToLayer_onLayer]
    have : m0.onLayer n' L' ↔ m.onLayer n' L' := by simp [onLayer, e1]
    rw [this]
    refine or_congr_right ?_
    constructor
    · rintro ⟨rfl, rfl⟩; exact ⟨rfl, rfl, hA⟩
    · rintro ⟨rfl, h, _⟩; cases h; exact ⟨rfl, rfl⟩
  · have : (m.addNode n layer).1.onLayer n' L' ↔ m.onLayer n' L' := by simp [onLayer, e1]
    rw [this]
    constructor
    · exact Or.inl
    · rintro (h | ⟨_, h1, h2⟩)
      · exact h
      · exact absurd h2 (hA _ h1)

theorem addNode_grows {m : MNet α W} (h : m.RInv) (n : α) (layer : Option (LKey α)) :
    Grows m (m.addNode n layer).1 := by
  obtain ⟨h1, -, -, h4, -, -⟩ := addNode_spec m n layer h.slen
  exact ⟨h1, fun b y hb => (h4 b y).2 (Or.inl hb), fun n' L hL => (addNode_onLayer h.slen ..).2 (Or.inl hL)⟩

theorem addNode_rinv {m : MNet α W} (h : m.RInv) (n : α) (layer : Option (LKey α)) :
    (m.addNode n layer).1.RInv := by
  have hon := addNode_onLayer h.slen n layer
  obtain ⟨h1, h2, h3, h4, h5, -⟩ := addNode_spec m n layer h.slen
  obtain ⟨f1, f2, f3, f4, -, -, -⟩ := h1.fields
  refine ⟨by rw [h2, f1]; exact h.slen, h3 h.snodup, by rw [f1, f4]; exact h.fic0, ?_, ?_, ?_, ?_, ?_⟩
  · intro n' L'
    rw [hon]
    rcases h5 with ⟨L, rfl, hA, m0, e1, e2, e3⟩ | ⟨hA, e1, e2⟩
    · rw [e3]
      simp only [addNodeToLayer, e2, Dict.get_set]
      have := h.n2l n' L'
      by_cases hL : L = L'
      · subst hL; simp [this, hA]
      · simp [hL, this]
    · rw [e2, ← h.n2l]
      constructor
      · rintro (h | ⟨_, h1, h2⟩)
        · exact h
        · exact absurd h2 (hA _ h1)
      · exact Or.inl
  · intro n'
    rcases h5 with ⟨L, rfl, hA, m0, e1, e2, e3⟩ | ⟨hA, e1, e2⟩
    · rw [e3]
      simp only [addNodeToLayer, e1, Dict.get_set]
      split
      · exact nodup_sadd (h.n2lnodup n) L
      · exact h.n2lnodup n'
    · rw [e1]; exact h.n2lnodup n'
  · intro L'
    rcases h5 with ⟨L, rfl, hA, m0, e1, e2, e3⟩ | ⟨hA, e1, e2⟩
    · rw [e3]
      simp only [addNodeToLayer, e2, Dict.get_set]
      split
      · exact nodup_sadd (h.l2nnodup L) n
      · exact h.l2nnodup L'
    · rw [e2]; exact h.l2nnodup L'
  · intro n' L'
    rw [hon]
    rintro (hL | ⟨rfl, rfl, hA⟩)
    · obtain ⟨a1, a2⟩ := h.nlreg n' L' hL
      exact ⟨(h4 _ _).2 (Or.inl a1), fun i x hx => (h4 _ _).2 (Or.inl (a2 i x hx))⟩
    · refine ⟨(h4 _ _).2 (Or.inr (Or.inl ⟨rfl, rfl⟩)), fun i x hx => (h4 _ _).2 (Or.inr (Or.inr ?_))⟩
      have hi : i < L'.toList.length := (List.getElem?_eq_some_iff.1 hx).1
      cases L' with
      | el a =>
        simp only [LKey.toList, List.length_cons, List.length_nil] at hi
        exact ⟨_, rfl, hA, by omega, by have := hA.2; omega, by simpa using hx⟩
      | tup l =>
        simp only [LKey.toList] at hi
        exact ⟨_, rfl, ⟨hA.1, hA.2.1⟩, by omega, by have := hA.2.2; omega, by simpa using hx⟩
  · intro n' L'
    rw [hon, f1, f4]
    rintro (hL | ⟨rfl, rfl, hA⟩)
    · exact h.nlkind n' L' hL
    · cases L' with
      | el a => exact ⟨hA.1, Or.inl ⟨hA.2, a, rfl⟩⟩
      | tup l => exact ⟨hA.1, Or.inr ⟨hA.2.1, l, rfl, hA.2.2⟩⟩

theorem addLayer_grows {m : MNet α W} (h : m.RInv) (x : α) (a : Nat) : Grows m (m.addLayer x a).1 := by
  unfold addLayer; split
  · exact addNode_grows h x none
  · exact sliceAdd_grows m a x

theorem addLayer_rinv {m : MNet α W} (h : m.RInv) (x : α) (a : Nat) : (m.addLayer x a).1.RInv := by
  unfold addLayer; split
  · exact addNode_rinv h x none
  · exact sliceAdd_rinv h a x

theorem addLayer_inSlice {m : MNet α W} (h : m.RInv) (x : α) (a b : Nat) (y : α) :
    (m.addLayer x a).1.inSlice b y ↔ m.inSlice b y ∨ (b = a ∧ y = x ∧ a ≤ m.aspects) := by
  unfold addLayer; split
  · rename_i ha; subst ha
    rw [(addNode_spec m x none h.slen).2.2.2.1 b y]
    simp
  · rw [sliceAdd_inSlice, h.slen]
    simp only [Nat.lt_succ_iff]

theorem addLayer_onLayer {m : MNet α W} (h : m.RInv) (x : α) (a : Nat) (n : α) (L : LKey α) :
    (m.addLayer x a).1.onLayer n L ↔ m.onLayer n L := by
  unfold addLayer; split
  · rw [addNode_onLayer h.slen]; simp
  · simp [onLayer, (sliceAdd_other m a x).1]

theorem addLayer_err {m : MNet α W} (h : m.RInv) (x : α) (a : Nat) :
    (m.addLayer x a).2 = none ↔ a ≤ m.aspects := by
  unfold addLayer; split
  · rename_i ha; subst ha
    rw [(addNode_spec m x none h.slen).2.2.2.2.2]; simp
  · rw [sliceAdd_err, h.slen]; simp [Nat.lt_succ_iff]

theorem addLinkLayers_spec (s t : List α) (hst : s.length = t.length) (m : MNet α W) (h : m.RInv)
    (a : Nat) (ha : a + s.length ≤ m.aspects + 1) :
    (m.addLinkLayers (interleave s t) a).2 = none ∧
    (m.addLinkLayers (interleave s t) a).1.RInv ∧
    Grows m (m.addLinkLayers (interleave s t) a).1 ∧
    (∀ b y, (m.addLinkLayers (interleave s t) a).1.inSlice b y ↔
      m.inSlice b y ∨ (a ≤ b ∧ (s[b - a]? = some y ∨ t[b - a]? = some y))) ∧
    (∀ n L, (m.addLinkLayers (interleave s t) a).1.onLayer n L ↔ m.onLayer n L) := by
  induction s generalizing t m a with
  | nil =>
    cases t with
    | nil => simp [interleave, addLinkLayers, h, Grows.refl]
    | cons y t => simp at hst
  | cons x s ih =>
    cases t with
    | nil => simp at hst
    | cons y t =>
      simp only [List.length_cons, Nat.add_right_cancel_iff] at hst
      simp only [List.length_cons] at ha
      simp only [interleave, addLinkLayers]
      have r1 := addLayer_rinv h x a
      have g1 := addLayer_grows h x a
      have as1 : (m.addLayer x a).1.aspects = m.aspects := g1.frame.fields.1
      have e1 : (m.addLayer x a).2 = none := (addLayer_err h x a).2 (by omega)
      rw [Outcome.andThen_of_eq e1]
      have r2 := addLayer_rinv r1 y a
      have g2 := addLayer_grows r1 y a
      have as2 : ((m.addLayer x a).1.addLayer y a).1.aspects = m.aspects := by
        rw [g2.frame.fields.1, as1]
      have e2 : ((m.addLayer x a).1.addLayer y a).2 = none := (addLayer_err r1 y a).2 (by omega)
      rw [Outcome.andThen_of_eq e2]
      obtain ⟨i1, i2, i3, i4, i5⟩ := ih t hst _ r2 (a + 1) (by omega)
      refine ⟨i1, i2, (g1.trans g2).trans i3, ?_, ?_⟩
      · intro b z
        rw [i4, addLayer_inSlice r1, addLayer_inSlice h, as1]
        by_cases hb : b = a
        · subst hb
          simp only [Nat.sub_self, List.getElem?_cons_zero, Option.some.injEq]
          constructor
          · rintro (((h | ⟨_, rfl, _⟩) | ⟨_, rfl, _⟩) | h)
            · exact Or.inl h
            · exact Or.inr ⟨Nat.le_refl _, Or.inl rfl⟩
            · exact Or.inr ⟨Nat.le_refl _, Or.inr rfl⟩
            · omega
          · rintro (h | ⟨_, rfl | rfl⟩)
            · exact Or.inl (Or.inl (Or.inl h))
            · exact Or.inl (Or.inl (Or.inr ⟨trivial, rfl, by omega⟩))
            · exact Or.inl (Or.inr ⟨trivial, rfl, by omega⟩)
        · constructor
          · rintro (((h | ⟨h, _⟩) | ⟨h, _⟩) | ⟨h1, h2⟩)
            · exact Or.inl h
            · exact absurd h hb
            · exact absurd h hb
            · refine Or.inr ⟨by omega, ?_⟩
              have : b - a = (b - (a + 1)) + 1 := by omega
              rw [this, List.getElem?_cons_succ, List.getElem?_cons_succ]; exact h2
          · rintro (h | ⟨h1, h2⟩)
            · exact Or.inl (Or.inl (Or.inl h))
            · refine Or.inr ⟨by omega, ?_⟩
              have : b - a = (b - (a + 1)) + 1 := by omega
              rw [this, List.getElem?_cons_succ, List.getElem?_cons_succ] at h2; exact h2
      · intro n L
        rw [i5, addLayer_onLayer r1, addLayer_onLayer h]

theorem ofList_toList (l : List α) : (LKey.ofList l).toList = l := by
  unfold LKey.ofList; split <;> rfl

theorem accepts_ofList {m : MNet α W} (hf : m.fic = false) (h1 : 1 ≤ m.aspects) {s : List α}
    (hs : s.length = m.aspects) : m.Accepts (.ofList s) := by
  match s, hs with
  | [], hs => simp at hs; omega
  | [a], hs => exact ⟨hf, by simp at hs; omega⟩
  | a :: b :: t, hs => exact ⟨hf, by simp at hs; omega, by simp [← hs]⟩

theorem considers_of_accepts {m : MNet α W} {L : LKey α} (h : m.Accepts L) : m.Considers L := by
  cases L with
  | el a => exact h
  | tup l => exact ⟨h.1, h.2.1⟩

theorem accepts_congr {m m' : MNet α W} (hf : m'.fic = m.fic) (ha : m'.aspects = m.aspects)
    (L : LKey α) : m'.Accepts L ↔ m.Accepts L := by
  cases L <;> simp [Accepts, hf, ha]

theorem addLinkNodes_spec (m : MNet α W) (h : m.RInv) (i j : α) (s t : List α)
    (hs : s.length = m.aspects) (ht : t.length = m.aspects) :
    (m.addLinkNodes (interleave (i :: s) (j :: t))).2 = none ∧
    (m.addLinkNodes (interleave (i :: s) (j :: t))).1.RInv ∧
    Grows m (m.addLinkNodes (interleave (i :: s) (j :: t))).1 ∧
    (∀ b y, (m.addLinkNodes (interleave (i :: s) (j :: t))).1.inSlice b y ↔
      m.inSlice b y ∨ (b = 0 ∧ (y = i ∨ y = j)) ∨
      (m.fic = false ∧ 1 ≤ b ∧ (s[b - 1]? = some y ∨ t[b - 1]? = some y))) ∧
    (∀ n L, (m.addLinkNodes (interleave (i :: s) (j :: t))).1.onLayer n L ↔
      m.onLayer n L ∨ (m.fic = false ∧ ((n = i ∧ L = .ofList s) ∨ (n = j ∧ L = .ofList t)))) := by
  simp only [interleave, addLinkNodes]
  rw [evens_interleave (by omega), odds_interleave (by omega)]
  cases hf : m.fic with
  | true =>
    simp only [if_true]
    have r1 := addLayer_rinv h i 0
    have g1 := addLayer_grows h i 0
    have e1 : (m.addLayer i 0).2 = none := (addLayer_err h i 0).2 (by omega)
    rw [Outcome.andThen_of_eq e1]
    refine ⟨(addLayer_err r1 j 0).2 (by omega), addLayer_rinv r1 j 0,
      g1.trans (addLayer_grows r1 j 0), ?_, ?_⟩
    · intro b y
      rw [addLayer_inSlice r1, addLayer_inSlice h]
      simp only [Nat.zero_le, and_true, Bool.true_eq_false, false_and, or_false]
      rw [or_assoc, ← and_or_left]
    · intro n L
      rw [addLayer_onLayer r1, addLayer_onLayer h]; simp
  | false =>
    simp only [Bool.false_eq_true, if_false]
    have h1 : 1 ≤ m.aspects := by
      rcases Nat.eq_zero_or_pos m.aspects with h0 | h0
      · rw [h.fic0 h0] at hf; cases hf
      · exact h0
    have r1 := addNode_rinv h i (some (.ofList s))
    have g1 := addNode_grows h i (some (.ofList s))
    obtain ⟨f1, f2, f3, f4, -, -, -⟩ := g1.frame.fields
    have hA1 := accepts_ofList hf h1 hs
    have e1 : (m.addNode i (some (.ofList s))).2 = none :=
      (addNode_spec m i _ h.slen).2.2.2.2.2.2 (Or.inr (by intro L hL; cases hL; exact hA1))
    rw [Outcome.andThen_of_eq e1]
    set m1 := (m.addNode i (some (.ofList s))).1 with hm1
    have hA2 : m1.Accepts (.ofList t) := accepts_ofList (by rw [f4, hf]) (by rw [f1]; exact h1)
      (by rw [f1]; exact ht)
    refine ⟨(addNode_spec m1 j _ r1.slen).2.2.2.2.2.2 (Or.inr (by intro L hL; cases hL; exact hA2)),
      addNode_rinv r1 j _, g1.trans (addNode_grows r1 j _), ?_, ?_⟩
    · intro b y
      rw [(addNode_spec m1 j _ r1.slen).2.2.2.1, (addNode_spec m i _ h.slen).2.2.2.1]
      constructor
      · rintro ((h | ⟨rfl, rfl⟩ | ⟨L, hL, _, h1, h2, h3⟩) | ⟨rfl, rfl⟩ | ⟨L, hL, _, h1, h2, h3⟩)
        · exact Or.inl h
        · exact Or.inr (Or.inl ⟨rfl, Or.inl rfl⟩)
        · cases hL; rw [ofList_toList] at h3
          exact Or.inr (Or.inr ⟨trivial, h1, Or.inl h3⟩)
        · exact Or.inr (Or.inl ⟨rfl, Or.inr rfl⟩)
        · cases hL; rw [ofList_toList] at h3
          exact Or.inr (Or.inr ⟨trivial, h1, Or.inr h3⟩)
      · rintro (h | ⟨rfl, rfl | rfl⟩ | ⟨_, hb, h | h⟩)
        · exact Or.inl (Or.inl h)
        · exact Or.inl (Or.inr (Or.inl ⟨rfl, rfl⟩))
        · exact Or.inr (Or.inl ⟨rfl, rfl⟩)
        · have := (List.getElem?_eq_some_iff.1 h).1
          exact Or.inl (Or.inr (Or.inr ⟨_, rfl, considers_of_accepts hA1, hb, by omega, by
            rw [ofList_toList]; exact h⟩))
        · have := (List.getElem?_eq_some_iff.1 h).1
          exact Or.inr (Or.inr ⟨_, rfl, considers_of_accepts hA2, hb, by rw [f1]; omega, by
            rw [ofList_toList]; exact h⟩)
    · intro n L
      rw [addNode_onLayer r1.slen, addNode_onLayer h.slen]
      constructor
      · rintro ((h | ⟨rfl, hL, _⟩) | ⟨rfl, hL, _⟩)
        · exact Or.inl h
        · cases hL; exact Or.inr ⟨trivial, Or.inl ⟨rfl, rfl⟩⟩
        · cases hL; exact Or.inr ⟨trivial, Or.inr ⟨rfl, rfl⟩⟩
      · rintro (h | ⟨_, ⟨rfl, rfl⟩ | ⟨rfl, rfl⟩⟩)
        · exact Or.inl (Or.inl h)
        · exact Or.inl (Or.inr ⟨rfl, rfl, hA1⟩)
        · exact Or.inr ⟨rfl, rfl, hA2⟩


/-! ### Stored links -/

theorem has_eq {κ ν : Type} [DecidableEq κ] (d : Dict κ ν) (k : κ) : Dict.has d k = (Dict.get d k).isSome := rfl

theorem addKey_lframe (m : MNet α W) (n : List α) : LFrame m (m.addKey n) := by
  unfold addKey; split <;> rfl

theorem addKey_spec {m : MNet α W} (h : m.LInv) (n : List α) :
    (m.addKey n).LInv ∧ (∀ a b, (m.addKey n).lk a b = m.lk a b) ∧
    (∀ a b, (m.addKey n).rlk a b = m.rlk a b) ∧ (m.addKey n).totalDegree = m.totalDegree ∧
    (∀ x, (Dict.get (m.addKey n).net x).isSome = ((Dict.get m.net x).isSome || decide (x = n))) := by
  by_cases hn : Dict.has m.net n = true
  · have : m.addKey n = m := by simp [addKey, hn]
    rw [this]
    refine ⟨h, fun _ _ => rfl, fun _ _ => rfl, rfl, ?_⟩
    intro x
    by_cases hx : x = n
    · subst hx; rw [has_eq] at hn; simp [hn]
    · simp [hx]
  · have hnone : Dict.get m.net n = none := by
      rw [has_eq] at hn; simpa using hn
    have hd : (m.addKey n).directed = m.directed := (addKey_lframe m n).fields.2.1
    have hne : (m.addKey n).noEdge = m.noEdge := (addKey_lframe m n).fields.2.2.1
    have htd : (m.addKey n).totalDegree = m.totalDegree := by unfold addKey; split <;> rfl
    have hnet : (m.addKey n).net = Dict.set m.net n [] := by simp [addKey, hn]
    have hrnet : (m.addKey n).rnet = if m.directed then Dict.set m.rnet n [] else m.rnet := by
      simp [addKey, hn]
    have hlk : ∀ a b, (m.addKey n).lk a b = m.lk a b := by
      intro a b; unfold lk; rw [hnet, get2_set_empty hnone]
    have hrlk : ∀ a b, (m.addKey n).rlk a b = m.rlk a b := by
      intro a b; unfold rlk; rw [hrnet]
      split
      · rename_i hdir
        have := h.rkeys hdir n
        rw [get2_set_empty (by rw [hnone] at this; simpa using this)]
      · rfl
    refine ⟨⟨?_, ?_, ?_, ?_, ?_, ?_, ?_⟩, hlk, hrlk, htd, ?_⟩
    · rw [hnet]; exact h.wf.set n (by simp [Dict.keys])
    · rw [hrnet]; split
      · exact h.rwf.set n (by simp [Dict.keys])
      · exact h.rwf
    · rw [hd]; intro hdir a b; rw [hlk, hlk]; exact h.sym hdir a b
    · rw [hd]; intro hdir a b; rw [hlk, hrlk]; exact h.mirror hdir a b
    · rw [hd]; intro hdir a; rw [hnet, hrnet, if_pos hdir, Dict.get_set, Dict.get_set]
      split
      · rfl
      · exact h.rkeys hdir a
    · intro a b w; rw [hlk, hne]; exact h.val a b w
    · rw [hd, htd]; intro hdir a b w; rw [hlk]; exact h.tkeys hdir a b w
    · intro x; rw [hnet, Dict.get_set]
      by_cases hx : x = n
      · subst hx; simp
      · have : ¬ n = x := fun e => hx e.symm
        simp [this, hx]

theorem lk_isSome {m : MNet α W} {a : List α} {i : Dict (List α) W} (h : Dict.get m.net a = some i)
    (b : List α) : Dict.has i b = (m.lk a b).isSome := by
  simp [has_eq, lk, get2_of_get h]

theorem rlk_isSome {m : MNet α W} {a : List α} {i : Dict (List α) W} (h : Dict.get m.rnet a = some i)
    (b : List α) : Dict.has i b = (m.rlk a b).isSome := by
  simp [has_eq, rlk, get2_of_get h]

theorem in2_net {m : MNet α W} {a : List α} (h : (Dict.get m.net a).isSome = true) (b : List α) :
    in2 m.net a b = .ok (m.lk a b).isSome := by
  obtain ⟨i, hi⟩ := Option.isSome_iff_exists.1 h
  simp [in2, hi, lk_isSome hi]

theorem in2_rnet {m : MNet α W} {a : List α} (h : (Dict.get m.rnet a).isSome = true) (b : List α) :
    in2 m.rnet a b = .ok (m.rlk a b).isSome := by
  obtain ⟨i, hi⟩ := Option.isSome_iff_exists.1 h
  simp [in2, hi, rlk_isSome hi]

theorem notInBoth_eq {m : MNet α W} {a : List α} (h : (Dict.get m.net a).isSome = true)
    (hr : (Dict.get m.rnet a).isSome = true) (b : List α) :
    notInBoth m.net m.rnet a b = .ok (!(m.lk a b).isSome && !(m.rlk a b).isSome) := by
  unfold notInBoth
  rw [in2_net h, in2_rnet hr]
  cases (m.lk a b).isSome <;> simp

/-- the total-degree counter of a node-layer, 0 if absent -/
def total (m : MNet α W) (x : List α) : Int := (Dict.get m.totalDegree x).getD 0

theorem bumpTotal_total (m : MNet α W) (n : List α) (k : Int) (x : List α) :
    (m.bumpTotal n k).total x = m.total x + if x = n then k else 0 := by
  unfold bumpTotal total
  simp only [Dict.get_set]
  by_cases h : x = n
  · subst h; simp
  · have : ¬ n = x := fun e => h e.symm
    simp [h, this]

/-- what `putTotals` does to the counters in a directed network whose two keys exist -/
theorem putTotals_spec {m : MNet α W} (h : m.LInv) (hd : m.directed = true) (n1 n2 : List α)
    (h1 : (Dict.get m.net n1).isSome = true) (h2 : (Dict.get m.net n2).isSome = true) :
    ∃ td, m.putTotals n1 n2 = ({ m with totalDegree := td }, none) ∧
      (∀ x, (Dict.get m.totalDegree x).isSome = true → (Dict.get td x).isSome = true) ∧
      (m.lk n1 n2 = none → m.lk n2 n1 = none →
        (Dict.get td n1).isSome = true ∧ (Dict.get td n2).isSome = true) ∧
      (∀ x, (Dict.get td x).getD 0 = m.total x +
        if m.lk n1 n2 = none ∧ m.lk n2 n1 = none ∧ (x = n1 ∨ x = n2) then 1 else 0) := by
  have r1 : (Dict.get m.rnet n1).isSome = true := by rw [h.rkeys hd]; exact h1
  have r2 : (Dict.get m.rnet n2).isSome = true := by rw [h.rkeys hd]; exact h2
  have hm1 : m.rlk n1 n2 = m.lk n2 n1 := h.mirror hd n2 n1
  have hm2 : m.rlk n2 n1 = m.lk n1 n2 := h.mirror hd n1 n2
  unfold putTotals
  rw [in2_net h1]
  simp only
  have bump : ∀ (m : MNet α W) (n : List α) (k : Int),
      m.bumpTotal n k = { m with totalDegree := (m.bumpTotal n k).totalDegree } := fun _ _ _ => rfl
  have bumpkeys : ∀ (m : MNet α W) (n x : List α) (k : Int),
      (Dict.get m.totalDegree x).isSome = true ∨ x = n →
      (Dict.get (m.bumpTotal n k).totalDegree x).isSome = true := by
    intro m n x k hx
    unfold bumpTotal; simp only [Dict.get_set]
    split
    · rfl
    · rename_i hne
      rcases hx with hx | hx
      · exact hx
      · exact absurd hx.symm hne
  by_cases hself : n1 = n2
  · subst hself
    cases hl : m.lk n1 n1 with
    | none =>
      simp only [Option.isSome_none, and_self, if_true]
      refine ⟨_, rfl, fun x hx => bumpkeys m n1 x 1 (Or.inl hx),
        by simpa using bumpkeys m n1 n1 1 (Or.inr rfl), ?_⟩
      intro x
      have := bumpTotal_total m n1 1 x
      simp only [total] at this ⊢
      simp only [true_and, or_self]
      exact this
    | some w =>
      simp only [Option.isSome_some, Bool.true_eq_false, and_false, if_false]
      rw [notInBoth_eq h1 r1]
      simp only [hl, Option.isSome_some, Bool.not_true, Bool.false_and, Bool.false_eq_true, if_false]
      rw [notInBoth_eq h1 r1]
      simp only [hl, Option.isSome_some, Bool.not_true, Bool.false_and, Bool.false_eq_true, if_false]
      refine ⟨m.totalDegree, rfl, fun x hx => hx, by simp, ?_⟩
      intro x; simp [total]
  · simp only [hself, false_and, if_false]
    rw [notInBoth_eq h1 r1]
    simp only [hm1]
    cases hl : m.lk n1 n2 with
    | some w =>
      simp only [Option.isSome_some, Bool.not_true, Bool.false_and, Bool.false_eq_true, if_false]
      rw [notInBoth_eq h2 r2]
      simp only [hm2, hl, Option.isSome_some, Bool.not_true, Bool.and_false, Bool.false_eq_true, if_false]
      exact ⟨m.totalDegree, rfl, fun x hx => hx, by simp, by intro x; simp [total]⟩
    | none =>
      cases hl2 : m.lk n2 n1 with
      | some w =>
        simp only [Option.isSome_none, Option.isSome_some, Bool.not_true, Bool.not_false, Bool.and_false,
          Bool.false_eq_true, if_false]
        rw [notInBoth_eq h2 r2]
        simp only [hm2, hl2, hl, Option.isSome_some, Bool.not_true, Bool.false_and, Bool.false_eq_true,
          if_false]
        exact ⟨m.totalDegree, rfl, fun x hx => hx, by simp, by intro x; simp [total]⟩
      | none =>
        simp only [Option.isSome_none, Bool.not_false, Bool.and_self, if_true]
        have e1 : (m.bumpTotal n1 1).net = m.net := rfl
        have e2 : (m.bumpTotal n1 1).rnet = m.rnet := rfl
        rw [e1, e2, notInBoth_eq h2 r2]
        simp only [hm2, hl2, hl, Option.isSome_none, Bool.not_false, Bool.and_self, if_true]
        refine ⟨((m.bumpTotal n1 1).bumpTotal n2 1).totalDegree, rfl, ?_, ?_, ?_⟩
        · intro x hx
          exact bumpkeys _ _ _ _ (Or.inl (bumpkeys _ _ _ _ (Or.inl hx)))
        · intro _ _
          exact ⟨bumpkeys _ _ _ _ (Or.inl (bumpkeys _ _ _ _ (Or.inr rfl))),
            bumpkeys _ _ _ _ (Or.inr rfl)⟩
        · intro x
          have t2 := bumpTotal_total (m.bumpTotal n1 1) n2 1 x
          have t1 := bumpTotal_total m n1 1 x
          simp only [true_and]
          change ((m.bumpTotal n1 1).bumpTotal n2 1).total x = _
          rw [t2, t1]
          by_cases hx1 : x = n1
          · subst hx1; simp [hself]
          · by_cases hx2 : x = n2
            · subst hx2; simp [hx1]
            · simp [hx1, hx2]

end MNet

end Pymnet
