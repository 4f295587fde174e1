import Verif.Proofs.ErLoop
import Verif.Props.Plex2

/-! Erdos-Renyi networks of one or more layers. -/

set_option linter.unusedSectionVars false

namespace Pymnet

open Py Models MPlex

variable {α W : Type} [DecidableEq α] [DecidableEq W] [Zero W]

/-! ### what the user sees -/

theorem BuiltM.looks {m : MNet α W} {S : α → Prop} {R : α → α → W} (h : BuiltM m S R) : Spec.LooksMono m S R := by
  have hl := Built.looks h (fun _ => rfl) (fun h => (nomatch h))
  refine ⟨hl.reachable, ?_, fun i j => ?_⟩
  · obtain ⟨l, h1, h2, h3⟩ := hl.layers 0 le_rfl
    exact ⟨l, h1, h2, fun x => (h3 x).trans (by simp)⟩
  · exact hl.reads [i, j] [i] [j] addresses_zero

theorem addresses_one {i j s : α} : Spec.Addresses 1 [i, j, s] [i, s] [j, s] := by
  simp [Spec.Addresses, Spec.link]

theorem BuiltP.looks [IntNames α] {p : MPlex α W} {c : Coupling α W} {al : Bool} {S LY : α → Prop} {NL : α → α → Prop}
    {R : α → α → α → W} (h : BuiltP p c al S LY NL R) :
    Spec.LooksPlex p c al S LY (fun x s => if al = true then S x else NL x s) R := by
  have hch := fun s => BuiltP.child h (s := s)
  obtain ⟨ops, rfl, h1, h2, h3, h4, h5⟩ := h
  have hLY : ∀ {s}, LY s → Spec.HasLayer [c].length al ops (.ofList [s]) := fun hs => (h3 _).2 hs
  refine ⟨⟨ops, rfl⟩, ?_, ?_, ?_, ?_, ?_⟩
  · obtain ⟨l, e1, e2, e3⟩ := C25_nodes (cs := [c]) (by simp) false 0 al ops
    exact ⟨l, e1, e2, fun x => (e3 x).trans (h2 x)⟩
  · obtain ⟨-, e2, e3⟩ := C25_layers (cs := [c]) (by simp) false 0 al ops
    refine ⟨e2, fun L => (e3 L).trans ⟨fun hL => ?_, ?_⟩⟩
    · obtain ⟨t, rfl, ht, -⟩ := id hL
      match t, ht with
      | [s], _ => exact ⟨s, rfl, (h3 s).1 hL⟩
    · rintro ⟨s, rfl, hs⟩; exact hLY hs
  · intro s hs
    cases al with
    | true =>
      obtain ⟨e1, -⟩ := C25_aligned_nodes (cs := [c]) (by simp) false 0 ops (hLY hs)
      obtain ⟨l, e2, e3, e4⟩ := C25_nodes (cs := [c]) (by simp) false 0 true ops
      exact ⟨l, e1.trans e2, e3, fun x => (e4 x).trans (by simpa using h2 x)⟩
    | false =>
      obtain ⟨l, e2, e3, e4⟩ := C25_layer_nodes (cs := [c]) (by simp) false 0 ops (hLY hs)
      exact ⟨l, e2, e3, fun x => (e4 x).1.trans (by simpa using h4 rfl x s)⟩
  · intro s hs i j hij
    obtain ⟨e1, -⟩ := C18_read (cs := [c]) (by simp) false 0 al ops (hLY hs) i j
    exact (e1 [i, j, s] hij addresses_one).trans (by rw [← h5]; rfl)
  · intro s hs
    obtain ⟨k, e1, e2⟩ := hch s hs
    exact ⟨k, e1, e2⟩

/-! ### one layer -/

section
variable {σ : Type} [One W] {T : Target σ α W} {P : σ → (α → Prop) → (α → α → W) → Prop}

/-- the indices of the linked pairs, for the parameters of a layer -/
def ErIndices (par : LayerPar) (N : Nat) (rnd : ErRandom) (I : Nat → Prop) : Prop :=
  match par with
  | (none, some k) => k ≤ N ∧ rnd.sample.Nodup ∧ rnd.sample.length = k ∧ (∀ e ∈ rnd.sample, e < N) ∧
      ∀ e < N, I e ↔ e ∈ rnd.sample
  | (some p, none) => Spec.Selects p N rnd.rs I
  | _ => False

theorem linkedAt_of_list [Inhabited α] {nodes : List α} (hn : nodes.Nodup) {l : List Nat}
    (hb : ∀ e ∈ l, e < nodes.length * (nodes.length - 1) / 2) :
    Spec.LinkedAt nodes (ones (W := W) (l.map (pairAt nodes)) fun _ _ => 0) (· ∈ l) := by
  have key : ∀ v w a b, w < v → nodes[v]? = some a → nodes[w]? = some b →
      (((a, b) ∈ l.map (pairAt nodes) ∨ (b, a) ∈ l.map (pairAt nodes)) ↔ Spec.pairIndex v w ∈ l) := by
    intro v w a b hvw ha hb'
    obtain ⟨hv, rfl⟩ := List.getElem?_eq_some_iff.1 ha
    obtain ⟨hw, rfl⟩ := List.getElem?_eq_some_iff.1 hb'
    have hlt := pairIndex_lt hvw hv
    constructor
    · rintro (h | h)
      · obtain ⟨e, he, h⟩ := List.mem_map.1 h
        rw [← pairAt_eq hvw hv] at h
        rw [← (pairAt_inj hn (hb e he) hlt).1 h]; exact he
      · obtain ⟨e, he, h⟩ := List.mem_map.1 h
        have := (pairAt_inj hn (hb e he) hlt).2
        rw [pairAt_eq hvw hv] at this
        exact absurd h this
    · intro h
      exact .inl (List.mem_map.2 ⟨_, h, pairAt_eq hvw hv⟩)
  refine ⟨fun v w a b h1 h2 h3 h4 => ?_, fun v w a b h1 h2 h3 h4 => ?_, fun a b h => ?_⟩
  · have := (key v w a b h1 h2 h3).2 h4
    exact ⟨if_pos this, if_pos this.symm⟩
  · have := mt (key v w a b h1 h2 h3).1 h4
    exact ⟨if_neg this, if_neg fun h => this h.symm⟩
  · refine if_neg ?_
    rintro (h' | h')
    · obtain ⟨e, he, h'⟩ := List.mem_map.1 h'
      have := pairAt_mem hn (hb e he)
      rw [h'] at this; exact h this
    · obtain ⟨e, he, h'⟩ := List.mem_map.1 h'
      have := pairAt_mem hn (hb e he)
      rw [h'] at this; exact h ⟨this.2.1, this.1, this.2.2.symm⟩

theorem linkedAt_congr {nodes : List α} {R : α → α → W} {I J : Nat → Prop} (h : Spec.LinkedAt nodes R I)
    (hIJ : ∀ e < nodes.length * (nodes.length - 1) / 2, I e ↔ J e) : Spec.LinkedAt nodes R J := by
  have hlt : ∀ {v w a}, w < v → nodes[v]? = some a → Spec.pairIndex v w < nodes.length * (nodes.length - 1) / 2 :=
    fun h1 h2 => pairIndex_lt h1 (List.getElem?_eq_some_iff.1 h2).1
  exact ⟨fun v w a b h1 h2 h3 h4 => h.linked v w a b h1 h2 h3 ((hIJ _ (hlt h1 h2)).2 h4),
    fun v w a b h1 h2 h3 h4 => h.unlinked v w a b h1 h2 h3 (fun h' => h4 ((hIJ _ (hlt h1 h2)).1 h')), h.outside⟩

theorem singleLayerEr_ok (F : Fills T P) {s s' : σ} {S : α → Prop} (h : P s S fun _ _ => 0) {nodes : List α}
    (hn : nodes.Nodup) {par : LayerPar} (hp : ∀ p, par.1 = some p → 0 < p ∧ p ≤ 1) {rnd : ErRandom}
    (hr : singleLayerEr T nodes par.1 par.2 rnd s = .ok s') :
    ∃ R I, P s' (fun x => S x ∨ x ∈ nodes) R ∧ Spec.LinkedAt nodes R I ∧
      ErIndices par (nodes.length * (nodes.length - 1) / 2) rnd I := by
  obtain ⟨s1, h1, h2⟩ := F.addNodes h nodes
  have hS : ∀ x ∈ nodes, S x ∨ x ∈ nodes := fun x hx => .inr hx
  rcases nodes.eq_nil_or_concat with h0 | ⟨-, d, -⟩
  · subst h0
    obtain ⟨par1, par2⟩ := par
    have hlink : ∀ I, Spec.LinkedAt ([] : List α) (fun _ _ => (0 : W)) I := fun I => ⟨by simp, by simp, fun _ _ _ => rfl⟩
    cases par1 with
    | none =>
      cases par2 with
      | none => cases hr
      | some k =>
        simp only [singleLayerEr, h1] at hr
        have hok := erEdges_ok hr
        have hs : rnd.sample = [] := by
          rcases hx : rnd.sample with _ | ⟨e, t⟩
          · rfl
          · have := hok.2.2.2 e (by simp [hx]); simp at this
        refine ⟨fun _ _ => 0, fun e => e ∈ rnd.sample, ?_, hlink _, hok.1, hok.2.1, hok.2.2.1, hok.2.2.2, fun _ _ => Iff.rfl⟩
        unfold erEdges at hr
        simp only at hr
        split at hr
        · cases hr
        · rw [if_neg (by rw [not_not]; exact ⟨hok.2.1, hok.2.2.1, hok.2.2.2⟩), hs] at hr
          cases hr; exact h2
    | some p =>
      cases par2 with
      | some k => cases hr
      | none =>
        simp only [singleLayerEr, h1] at hr
        have hsel : Spec.Selects p 0 rnd.rs (fun _ => False) := by
          unfold Spec.Selects
          split
          · simp
          · exact ⟨[], rnd.rs, [], rfl, .nil, by simp, by simp⟩
        refine ⟨fun _ _ => 0, fun _ => False, ?_, hlink _, by simpa [ErIndices] using hsel⟩
        split at hr
        · cases hr; exact h2
        · unfold erLoop at hr
          rw [if_neg (by simp)] at hr
          cases hr; exact h2
  have : Inhabited α := ⟨d⟩
  obtain ⟨par1, par2⟩ := par
  cases par1 with
  | none =>
    cases par2 with
    | none => cases hr
    | some k =>
      simp only [singleLayerEr, h1] at hr
      obtain ⟨k1, k2, k3, k4⟩ := erEdges_ok hr
      obtain ⟨s2, e1, e2⟩ := erEdges_spec F h2 hn hS k1 k2 k3 k4
      rw [hr] at e1; cases e1
      exact ⟨_, _, e2, linkedAt_of_list hn k4, k1, k2, k3, k4, fun _ _ => Iff.rfl⟩
  | some p =>
    cases par2 with
    | some k => cases hr
    | none =>
      simp only [singleLayerEr, h1] at hr
      split at hr
      · rename_i hp1
        obtain ⟨s2, e1, e2⟩ := erFull_spec F h2 hS
        rw [e1] at hr; cases hr
        refine ⟨_, fun _ => True, e2, ⟨fun v w a b h1 h2 h3 _ => ?_, fun v w a b _ _ _ h => absurd trivial h,
          fun a b h => if_neg h⟩, ?_⟩
        · obtain ⟨hv, rfl⟩ := List.getElem?_eq_some_iff.1 h2
          obtain ⟨hw, rfl⟩ := List.getElem?_eq_some_iff.1 h3
          have hne : nodes[v] ≠ nodes[w] := fun h => by have := (List.Nodup.getElem_inj_iff hn).1 h; omega
          exact ⟨if_pos ⟨List.getElem_mem _, List.getElem_mem _, hne⟩,
            if_pos ⟨List.getElem_mem _, List.getElem_mem _, hne.symm⟩⟩
        · simp [ErIndices, Spec.Selects, hp1]
      · rename_i hp1
        have hp0 := hp p rfl
        obtain ⟨used, rest, skips, e1, e2, e3, e4⟩ := erLoop_ok F hn hS hp0.1 (lt_of_le_of_ne hp0.2 hp1) rnd.rs (v := 1)
          (w := -1) (E := 0) h2 le_rfl le_rfl (fun _ => by omega) (by norm_num) hr
        refine ⟨_, _, e4, linkedAt_of_list hn (fun e he => by simpa using (List.mem_filter.1 he).2), ?_⟩
        simp only [ErIndices, Spec.Selects, if_neg hp1]
        refine ⟨used, rest, skips, e1, e2, by omega, fun e he => ?_⟩
        rw [List.mem_filter, mem_positions]
        simp [he]

theorem singleLayerEr_returns (F : Fills T P) {s : σ} {S : α → Prop} (h : P s S fun _ _ => 0) {nodes : List α}
    (hn : nodes.Nodup) {par : LayerPar} {rnd : ErRandom}
    (hpar : (∃ k, par = (none, some k) ∧ k ≤ nodes.length * (nodes.length - 1) / 2 ∧ rnd.sample.Nodup ∧
        rnd.sample.length = k ∧ ∀ e ∈ rnd.sample, e < nodes.length * (nodes.length - 1) / 2) ∨
      (∃ p, par = (some p, none) ∧ 0 < p ∧ p ≤ 1 ∧ (∀ r ∈ rnd.rs, 0 ≤ r ∧ r < 1) ∧
        nodes.length * (nodes.length - 1) / 2 < rnd.rs.length)) :
    ∃ s', singleLayerEr T nodes par.1 par.2 rnd s = .ok s' := by
  obtain ⟨s1, h1, h2⟩ := F.addNodes h nodes
  have hS : ∀ x ∈ nodes, S x ∨ x ∈ nodes := fun x hx => .inr hx
  rcases hpar with ⟨k, rfl, k1, k2, k3, k4⟩ | ⟨p, rfl, p1, p2, p3, p4⟩
  · simp only [singleLayerEr, h1]
    rcases nodes.eq_nil_or_concat with h0 | ⟨-, d, -⟩
    · subst h0
      have hs : rnd.sample = [] := by
        rcases hx : rnd.sample with _ | ⟨e, t⟩
        · rfl
        · have := k4 e (by simp [hx]); simp at this
      refine ⟨s1, ?_⟩
      unfold erEdges
      rw [hs] at k2 k3 k4 ⊢
      rw [if_neg (by omega), if_neg (by rw [not_not]; exact ⟨k2, k3, k4⟩)]
      rfl
    · have : Inhabited α := ⟨d⟩
      obtain ⟨s2, e1, -⟩ := erEdges_spec F h2 hn hS k1 k2 k3 k4
      exact ⟨s2, e1⟩
  · simp only [singleLayerEr, h1]
    split
    · obtain ⟨s2, e1, -⟩ := erFull_spec F h2 hS
      exact ⟨s2, by rw [e1]; rfl⟩
    · rename_i hp1
      exact erLoop_returns F hn p1 (lt_of_le_of_ne p2 hp1) hS rnd.rs p3 (v := 1) (w := -1) (E := 0) h2 le_rfl le_rfl
        (fun _ => by omega) (by norm_num) (by omega)

end

/-! ### several layers -/

theorem forS_ok {τ β : Type} {f : τ → β → Except Stop τ} {P : List β → τ → Prop} (l : List β) {s s' : τ} (h0 : P [] s)
    (hstep : ∀ pre b post s s', l = pre ++ b :: post → P pre s → f s b = .ok s' → P (pre ++ [b]) s')
    (hr : forS f l s = .ok s') : P l s' := by
  have key : ∀ (post pre : List β) (s : τ), l = pre ++ post → P pre s → forS f post s = .ok s' → P l s' := by
    intro post
    induction post with
    | nil => intro pre s hl hp hr; simp at hl; subst hl; cases hr; exact hp
    | cons b post ih =>
      intro pre s hl hp hr
      rw [forS] at hr
      split at hr
      · cases hr
      · rename_i s1 h1
        exact ih (pre ++ [b]) s1 (by simp [hl]) (hstep pre b post s s1 hl hp h1) hr
  exact key l [] s rfl h0 hr

theorem forS_returns {τ β : Type} {f : τ → β → Except Stop τ} {P : List β → τ → Prop} (l : List β) {s : τ} (h0 : P [] s)
    (hstep : ∀ pre b post s, l = pre ++ b :: post → P pre s → ∃ s', f s b = .ok s' ∧ P (pre ++ [b]) s') :
    ∃ s', forS f l s = .ok s' ∧ P l s' := by
  have key : ∀ (post pre : List β) (s : τ), l = pre ++ post → P pre s → ∃ s', forS f post s = .ok s' ∧ P l s' := by
    intro post
    induction post with
    | nil => intro pre s hl hp; simp at hl; subst hl; exact ⟨s, rfl, hp⟩
    | cons b post ih =>
      intro pre s hl hp
      obtain ⟨s1, h1, h2⟩ := hstep pre b post s hl hp
      rw [forS, h1]
      exact ih (pre ++ [b]) s1 (by simp [hl]) h2
  exact key l [] s rfl h0

variable [One W]

/-- the content after some of the layers -/
def ErPre (ix : Nat → α) (c : Coupling α W) (al : Bool) (rnd : Nat → ErRandom) (pre : List (Nat × LayerPar × List α))
    (p : MPlex α W) : Prop :=
  ∃ R, BuiltP p c al (fun x => ∃ l ∈ pre, x ∈ l.2.2) (fun s => ∃ l ∈ pre, s = ix l.1)
      (fun n s => ∃ l ∈ pre, s = ix l.1 ∧ n ∈ l.2.2) R ∧
    (∀ l ∈ pre, ∃ I, Spec.LinkedAt l.2.2 (R (ix l.1)) I ∧
      ErIndices l.2.1 (l.2.2.length * (l.2.2.length - 1) / 2) (rnd l.1) I) ∧
    ∀ s, (∀ l ∈ pre, s ≠ ix l.1) → ∀ a b, R s a b = 0

theorem erPre_layer {ix : Nat → α} {c : Coupling α W} {al : Bool} {rnd : Nat → ErRandom}
    {pre : List (Nat × LayerPar × List α)} {l : Nat × LayerPar × List α} (hl : ∀ x ∈ pre, ix l.1 ≠ ix x.1)
    {p : MPlex α W} (h : ErPre ix c al rnd pre p) :
    ∃ p1, (p.addLayer (ix l.1) 1).toExcept = .ok p1 ∧ ∃ S0 LY NL0 R0, LY (ix l.1) ∧
      BuiltL c al (ix l.1) S0 LY NL0 R0 p1 (fun _ => False) (fun _ _ => 0) ∧
      ∀ {p2 : MPlex α W} {R : α → α → W} {I : Nat → Prop},
        BuiltL c al (ix l.1) S0 LY NL0 R0 p2 (fun x => False ∨ x ∈ l.2.2) R → Spec.LinkedAt l.2.2 R I →
        ErIndices l.2.1 (l.2.2.length * (l.2.2.length - 1) / 2) (rnd l.1) I → ErPre ix c al rnd (pre ++ [l]) p2 := by
  obtain ⟨R, h1, h2, h3⟩ := h
  obtain ⟨p1, e1, e2⟩ := h1.addLayer (ix l.1)
  refine ⟨p1, e1, (fun x => ∃ l ∈ pre, x ∈ l.2.2), (fun x => (∃ l ∈ pre, x = ix l.1) ∨ x = ix l.1),
    (fun n s => ∃ l ∈ pre, s = ix l.1 ∧ n ∈ l.2.2), R, .inr rfl, ?_, ?_⟩
  · refine e2.congr (fun x => by simp) (fun _ => Iff.rfl) (fun n s => ?_) (fun s a b => ?_)
    · constructor
      · rintro ⟨k, k1, rfl, k2⟩; exact .inl ⟨fun h => hl k k1 h.symm, k, k1, rfl, k2⟩
      · rintro (⟨-, h⟩ | ⟨-, h⟩)
        · exact h
        · exact h.elim
    · split
      · rename_i hs; subst hs; exact h3 _ (fun k hk => hl k hk) a b
      · rfl
  · intro p2 R2 I hb hL hI
    refine ⟨_, BuiltP.congr hb (fun x => ?_) (fun x => ?_) (fun n s => ?_) (fun _ _ _ => rfl), ?_, ?_⟩
    · simp [or_and_right, exists_or]
    · simp [or_and_right, exists_or]
    · simp only [List.mem_append, List.mem_singleton, or_and_right, exists_or, exists_eq_left]
      constructor
      · rintro (⟨-, h⟩ | ⟨h, h' | h'⟩)
        · exact .inl h
        · exact h'.elim
        · exact .inr ⟨h, h'⟩
      · rintro (⟨k, k1, rfl, k2⟩ | ⟨h, h'⟩)
        · exact .inl ⟨fun h => hl k k1 h.symm, k, k1, rfl, k2⟩
        · exact .inr ⟨h, .inr h'⟩
    · intro k hk
      rcases List.mem_append.1 hk with hk | hk
      · obtain ⟨I', i1, i2⟩ := h2 k hk
        refine ⟨I', ?_, i2⟩
        have : ix k.1 ≠ ix l.1 := fun h => hl k hk h.symm
        simpa only [this, if_false] using i1
      · cases List.mem_singleton.1 hk
        exact ⟨I, by simpa using hL, hI⟩
    · intro s hs a b
      rw [if_neg (hs l (by simp))]
      exact h3 s (fun k hk => hs k (by simp [hk])) a b

theorem erLayers_ok {ix : Nat → α} {c : Coupling α W} {al : Bool} {rnd : Nat → ErRandom}
    {layers : List (Nat × LayerPar × List α)} (hd : (layers.map fun l => ix l.1).Nodup)
    (hn : ∀ l ∈ layers, l.2.2.Nodup) (hp : ∀ l ∈ layers, ∀ p, l.2.1.1 = some p → 0 < p ∧ p ≤ 1) {p : MPlex α W}
    (hr : erLayers ix rnd layers (MPlex.init [c] false 0 al) = .ok p) : ErPre ix c al rnd layers p := by
  refine forS_ok (P := ErPre ix c al rnd) layers ?_ ?_ hr
  · exact ⟨_, (BuiltP.init c al).congr (by simp) (by simp) (by simp) (fun _ _ _ => rfl), by simp, fun _ _ _ _ => rfl⟩
  · intro pre l post s s' hl h hr
    rw [hl, List.map_append, List.nodup_append] at hd
    have hne : ∀ x ∈ pre, ix l.1 ≠ ix x.1 := fun x hx h =>
      hd.2.2 (ix x.1) (List.mem_map.2 ⟨x, hx, rfl⟩) (ix l.1) (by simp) h.symm
    obtain ⟨p1, e1, S0, LY, NL0, R0, hLY, e2, e3⟩ := erPre_layer hne h
    rw [e1] at hr
    simp only at hr
    obtain ⟨R, I, i1, i2, i3⟩ := singleLayerEr_ok (fills_layer c al (ix l.1) S0 LY NL0 R0 hLY) e2
      (hn l (by simp [hl])) (hp l (by simp [hl])) hr
    exact e3 i1 i2 i3

theorem erLayers_returns {ix : Nat → α} {c : Coupling α W} {al : Bool} {rnd : Nat → ErRandom}
    {layers : List (Nat × LayerPar × List α)} (hd : (layers.map fun l => ix l.1).Nodup)
    (hn : ∀ l ∈ layers, l.2.2.Nodup)
    (hp : ∀ l ∈ layers, (∃ k, l.2.1 = (none, some k) ∧ k ≤ l.2.2.length * (l.2.2.length - 1) / 2 ∧
          (rnd l.1).sample.Nodup ∧ (rnd l.1).sample.length = k ∧
          ∀ e ∈ (rnd l.1).sample, e < l.2.2.length * (l.2.2.length - 1) / 2) ∨
        (∃ p, l.2.1 = (some p, none) ∧ 0 < p ∧ p ≤ 1 ∧ (∀ r ∈ (rnd l.1).rs, 0 ≤ r ∧ r < 1) ∧
          l.2.2.length * (l.2.2.length - 1) / 2 < (rnd l.1).rs.length)) :
    ∃ p, erLayers ix rnd layers (MPlex.init [c] false 0 al : MPlex α W) = .ok p := by
  refine (forS_returns (P := ErPre ix c al rnd) layers ?_ ?_).imp fun p h => h.1
  · exact ⟨_, (BuiltP.init c al).congr (by simp) (by simp) (by simp) (fun _ _ _ => rfl), by simp, fun _ _ _ _ => rfl⟩
  · intro pre l post s hl h
    rw [hl, List.map_append, List.nodup_append] at hd
    have hne : ∀ x ∈ pre, ix l.1 ≠ ix x.1 := fun x hx h =>
      hd.2.2 (ix x.1) (List.mem_map.2 ⟨x, hx, rfl⟩) (ix l.1) (by simp) h.symm
    obtain ⟨p1, e1, S0, LY, NL0, R0, hLY, e2, e3⟩ := erPre_layer hne h
    rw [e1]
    simp only
    obtain ⟨s', hs'⟩ := singleLayerEr_returns (fills_layer c al (ix l.1) S0 LY NL0 R0 hLY) e2
      (hn l (by simp [hl])) (hp l (by simp [hl]))
    obtain ⟨R, I, i1, i2, i3⟩ := singleLayerEr_ok (fills_layer c al (ix l.1) S0 LY NL0 R0 hLY) e2
      (hn l (by simp [hl])) (by
        intro p hp'
        rcases hp l (by simp [hl]) with ⟨k, hk, -⟩ | ⟨p', hk, h1, h2, -⟩
        · rw [hk] at hp'; cases hp'
        · rw [hk] at hp'; cases hp'; exact ⟨h1, h2⟩) hs'
    exact ⟨s', hs', e3 i1 i2 i3⟩

end Pymnet

namespace Pymnet

open Py Models

section
variable {α W : Type} [DecidableEq α] [DecidableEq W] [Zero W] [One W]

/-- two descriptions of the same links -/
theorem linkedAt_unique {nodes : List α} {R R' : α → α → W} {I : Nat → Prop} (h : Spec.LinkedAt nodes R I)
    (h' : Spec.LinkedAt nodes R' I) (a b : α) : R a b = R' a b := by
  by_cases hab : a ∈ nodes ∧ b ∈ nodes ∧ a ≠ b
  · obtain ⟨ha, hb, hne⟩ := hab
    obtain ⟨v, hv, rfl⟩ := List.getElem_of_mem ha
    obtain ⟨w, hw, rfl⟩ := List.getElem_of_mem hb
    have e1 : nodes[v]? = some nodes[v] := List.getElem?_eq_getElem hv
    have e2 : nodes[w]? = some nodes[w] := List.getElem?_eq_getElem hw
    rcases Nat.lt_trichotomy v w with hlt | rfl | hlt
    · by_cases hI : I (Spec.pairIndex w v)
      · rw [(h.linked w v _ _ hlt e2 e1 hI).2, (h'.linked w v _ _ hlt e2 e1 hI).2]
      · rw [(h.unlinked w v _ _ hlt e2 e1 hI).2, (h'.unlinked w v _ _ hlt e2 e1 hI).2]
    · exact absurd rfl hne
    · by_cases hI : I (Spec.pairIndex v w)
      · rw [(h.linked v w _ _ hlt e1 e2 hI).1, (h'.linked v w _ _ hlt e1 e2 hI).1]
      · rw [(h.unlinked v w _ _ hlt e1 e2 hI).1, (h'.unlinked v w _ _ hlt e1 e2 hI).1]
  · rw [h.outside a b hab, h'.outside a b hab]

/-- a given number of links -/
theorem simple_of_edges {nodes : List α} (hn : nodes.Nodup) {R : α → α → W} {I : Nat → Prop} {k : Nat} {rnd : ErRandom}
    (h : Spec.LinkedAt nodes R I) (hI : ErIndices (none, some k) (nodes.length * (nodes.length - 1) / 2) rnd I) :
    ∃ L, Spec.SimpleLinks (· ∈ nodes) R L ∧ L.length = k := by
  obtain ⟨-, h2, h3, h4, h5⟩ := hI
  rcases nodes.eq_nil_or_concat with h0 | ⟨-, d, -⟩
  · subst h0
    have hs : rnd.sample = [] := by
      rcases hx : rnd.sample with _ | ⟨e, t⟩
      · rfl
      · have := h4 e (by simp [hx]); simp at this
    refine ⟨[], ⟨by simp, by simp, by simp, fun a b => ?_⟩, by rw [← h3, hs]; rfl⟩
    rw [h.outside a b (by simp)]; simp
  · have : Inhabited α := ⟨d⟩
    refine ⟨rnd.sample.map (pairAt nodes), ?_, by rw [List.length_map, h3]⟩
    have e1 := simple_of_indices (W := W) hn h2 h4
    refine ⟨e1.nodup, e1.once, e1.inside, fun a b => ?_⟩
    rw [← e1.weights a b]
    exact linkedAt_unique (linkedAt_congr h h5) (linkedAt_of_list hn h4) a b

theorem mem_zipLayers {pars : List LayerPar} {nodes : List (List α)} {l : Nat × LayerPar × List α} :
    l ∈ zipLayers pars nodes ↔ pars[l.1]? = some l.2.1 ∧ nodes[l.1]? = some l.2.2 := by
  obtain ⟨k, par, ns⟩ := l
  unfold zipLayers
  rw [List.mem_iff_getElem?]
  constructor
  · rintro ⟨i, hi⟩
    rw [List.getElem?_zip_eq_some, List.getElem?_zip_eq_some] at hi
    obtain ⟨h1, h2, h3⟩ := hi
    obtain ⟨h4, h5⟩ := List.getElem?_eq_some_iff.1 h1
    rw [List.getElem_range] at h5
    subst h5
    exact ⟨h2, h3⟩
  · rintro ⟨h1, h2⟩
    refine ⟨k, ?_⟩
    rw [List.getElem?_zip_eq_some, List.getElem?_zip_eq_some]
    refine ⟨?_, h1, h2⟩
    have a1 := (List.getElem?_eq_some_iff.1 h1).1
    have a2 := (List.getElem?_eq_some_iff.1 h2).1
    rw [List.getElem?_range (by omega)]

theorem nodup_zipLayers {ix : Nat → α} (hix : Function.Injective ix) (pars : List LayerPar) (nodes : List (List α)) :
    ((zipLayers pars nodes).map fun l => ix l.1).Nodup := by
  have : (zipLayers pars nodes).map (fun l => ix l.1) = (((zipLayers pars nodes).map Prod.fst).map ix) := by simp
  rw [this]
  refine List.Nodup.map hix ?_
  unfold zipLayers
  rw [List.map_fst_zip (by simp)]
  exact List.nodup_range

omit [DecidableEq α] in
theorem nodup_rangeNames {ix : Nat → α} (hix : Function.Injective ix) (n : Nat) : (rangeNames ix n).Nodup :=
  List.nodup_range.map hix

omit [DecidableEq α] in
theorem mem_rangeNames {ix : Nat → α} {n : Nat} {x : α} : x ∈ rangeNames ix n ↔ ∃ i < n, x = ix i := by
  simp [rangeNames, eq_comm]

end

end Pymnet
