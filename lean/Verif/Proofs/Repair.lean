import Verif.Proofs.Slots
import Verif.Proofs.Fills

/-! The repairs of the configuration models: the invariant, and the exchange of pairs that keeps it. -/

set_option linter.unusedSectionVars false

namespace Pymnet

open Py Models

variable {α : Type} [DecidableEq α] [LinearOrder α]

/-- pairs whose positions are known: self-links, multiple links, links that are taken -/
def Tracked (pend tk : List (α × α)) (m : α × α) : Prop := m.1 = m.2 ∨ m ∈ pend ∨ m ∈ tk

/-- The invariant of the repairs: `pend` are the multiple links and `tk` the taken links that are still to be removed, `pos`
the positions of the links that are to be removed. -/
structure Rep (stubs : List α) (U0 : α × α → Prop) (pend tk : List (α × α)) (pos : α × α → List Nat)
    (pairs : List (α × α)) (lk : α × α → Prop) : Prop where
  slots : Slots stubs U0 (· ∈ pend) pairs lk
  pos : ∀ m, Tracked pend tk m → Tracks pairs m (pos m)
  bad : ∀ p ∈ pairs, U0 (key p) → key p ∈ tk
  pendOk : ∀ m ∈ pend, m.1 ≠ m.2 ∧ ¬ U0 m
  tkOk : ∀ m ∈ tk, m.1 ≠ m.2 ∧ U0 m

/-- a pair that may be used for a repair -/
def Good (pend tk : List (α × α)) (p : α × α) : Prop := p.1 ≠ p.2 ∧ key p ∉ pend ∧ key p ∉ tk

theorem Good.untracked {pend tk : List (α × α)} {p : α × α} (h : Good pend tk p) : ¬ Tracked pend tk (key p) := by
  rintro (h1 | h1 | h1)
  · exact h.1 (srt_diag.1 h1)
  · exact h.2.1 h1
  · exact h.2.2 h1

section
variable {stubs : List α} {U0 : α × α → Prop} {pend tk : List (α × α)} {pos : α × α → List Nat}
  {pairs : List (α × α)} {lk : α × α → Prop}

theorem Rep.good (h : Rep stubs U0 pend tk pos pairs lk) {s : Nat} {p : α × α} (hp : pairs[s]? = some p)
    (hg : Good pend tk p) : cnt (key p) pairs = 1 ∧ lk (key p) ∧ ¬ U0 (key p) := by
  have hm : p ∈ pairs := List.mem_of_getElem? hp
  have hd : (key p).1 ≠ (key p).2 := fun e => hg.1 (srt_diag.1 e)
  have hu : ¬ U0 (key p) := fun e => hg.2.2 (h.bad p hm e)
  have h1 := h.slots.one (key p) hd hu hg.2.1
  have h2 : 0 < cnt (key p) pairs := cnt_pos.2 ⟨p, hm, rfl⟩
  exact ⟨by omega, (h.slots.lk _).2 ⟨hd, hu, h2⟩, hu⟩

theorem Rep.mem_stubs (h : Rep stubs U0 pend tk pos pairs lk) {p : α × α} (hp : p ∈ pairs) :
    p.1 ∈ stubs ∧ p.2 ∈ stubs := by
  have key2 : ∀ a, 0 < endsAt a p → a ∈ stubs := by
    intro a ha
    have h1 := h.slots.deg a
    rw [← List.count_pos_iff, ← h1]
    refine lt_of_lt_of_le ha ?_
    exact List.single_le_sum (by simp) _ (List.mem_map_of_mem hp)
  exact ⟨key2 _ (by simp [endsAt]), key2 _ (by simp [endsAt])⟩

theorem Rep.swap (h : Rep stubs U0 pend tk pos pairs lk) {m : α × α} (hm : Tracked pend tk m)
    (us1 us2 : List (Exch α)) (hpos : ((us1 ++ us2).map Prod.fst).Nodup)
    (hold : ∀ u ∈ us1 ++ us2, pairs[u.1]? = some u.2.1) (h1 : ∀ u ∈ us1, key u.2.1 = m) (hne : us1 ≠ [])
    (h2 : ∀ u ∈ us2, Good pend tk u.2.1) (h2n : (us2.map fun u => key u.2.1).Nodup)
    (hdeg : ∀ a, ((us1 ++ us2).map fun u => endsAt a u.2.1).sum = ((us1 ++ us2).map fun u => endsAt a u.2.2).sum)
    {D N : List (α × α)} (hNe : N = (us1 ++ us2).map fun u => key u.2.2) (hN : N.Nodup)
    (hN1 : ∀ q ∈ N, q.1 ≠ q.2 ∧ ¬ U0 q ∧ ¬ lk q) (hNp : ∀ q ∈ N, q ∉ pend)
    (hD : ∀ q, q ∈ D ↔ q ∈ (us2.map fun u => key u.2.1) ∨ (q = m ∧ m ∈ pend ∧ (pos m).length = us1.length))
    {pos' : α × α → List Nat} (hp1 : ∀ k, k ≠ m → pos' k = pos k) (hp2 : (pos' m).Nodup)
    (hp3 : ∀ s, s ∈ pos' m ↔ s ∈ pos m ∧ s ∉ us1.map Prod.fst) :
    Rep stubs U0 pend tk pos' (setAll pairs (us1 ++ us2)) (fun q => (lk q ∧ q ∉ D) ∨ q ∈ N) := by
  have hg : ∀ u ∈ us2, cnt (key u.2.1) pairs = 1 ∧ lk (key u.2.1) ∧ ¬ U0 (key u.2.1) := fun u hu =>
    h.good (hold u (by simp [hu])) (h2 u hu)
  have hm2 : ∀ u ∈ us2, key u.2.1 ≠ m := fun u hu e => (h2 u hu).untracked (e ▸ hm)
  have hcm := (h.pos m hm).cnt
  -- how often the old pairs occur
  have hc : ∀ q, cntOld q (us1 ++ us2) = (if q = m then us1.length else 0) +
      if q ∈ (us2.map fun u => key u.2.1) then 1 else 0 := by
    intro q
    unfold cntOld
    rw [List.map_append, List.sum_append]
    congr 1
    · have : (us1.map fun u => if key u.2.1 = q then 1 else 0) = us1.map fun _ => if q = m then 1 else 0 := by
        refine List.map_congr_left fun u hu => ?_
        rw [h1 u hu]
        by_cases hq : q = m <;> simp [hq, eq_comm]
        intro e; exact absurd e.symm hq
      rw [this, List.map_const', List.sum_replicate]
      split <;> simp
    · clear * - h2n
      induction us2 with
      | nil => simp
      | cons u us ih =>
        simp only [List.map_cons, List.nodup_cons] at h2n
        simp only [List.map_cons, List.sum_cons, List.mem_cons, ih h2n.2]
        by_cases e : key u.2.1 = q
        · subst e
          simp only [if_true, true_or]
          rw [if_neg h2n.1]
        · simp only [e, if_false, Ne.symm e, false_or, Nat.zero_add]
  have hlen : 0 < us1.length := List.length_pos_of_ne_nil hne
  refine ⟨?_, ?_, ?_, h.pendOk, h.tkOk⟩
  · refine h.slots.swap _ hpos hold hdeg hNe hN hN1 ?_ (fun q _ _ h3 h4 => absurd h4 h3)
    intro q hq hU
    rw [hD, hc]
    by_cases e : q = m
    · subst e
      have hp : q ∈ pend := by
        rcases hm with hm | hm | hm
        · exact absurd hm hq
        · exact hm
        · exact absurd (h.tkOk q hm).2 hU
      have hn2 : q ∉ (us2.map fun u => key u.2.1) := by
        intro hq2
        obtain ⟨u, hu, e⟩ := List.mem_map.1 hq2
        exact hm2 u hu e
      simp only [hn2, false_or, if_true, if_false, hp, true_and, hcm]
      omega
    · simp only [e, if_false, false_and, or_false]
      by_cases hq2 : q ∈ (us2.map fun u => key u.2.1)
      · obtain ⟨u, hu, rfl⟩ := List.mem_map.1 hq2
        simp only [hq2, if_true, (hg u hu).1]
        simp
      · simp only [hq2, if_false]; simp
  · intro k hk
    have hkN : ∀ u ∈ us1 ++ us2, key u.2.2 ≠ k := by
      rintro u hu rfl
      have hu2 : key u.2.2 ∈ N := by rw [hNe]; exact List.mem_map_of_mem hu
      have hN2 := hN1 _ hu2
      rcases hk with hk | hk | hk
      · exact hN2.1 hk
      · exact hNp _ hu2 hk
      · exact hN2.2.1 (h.tkOk _ hk).2
    by_cases e : k = m
    · subst e
      refine (h.pos k hk).swap _ hpos hold hkN hp2 (fun s => ?_)
      rw [hp3]
      constructor
      · rintro ⟨a, b⟩
        refine ⟨a, ?_⟩
        rw [List.map_append, List.mem_append]
        rintro (c | c)
        · exact b c
        · obtain ⟨u, hu, rfl⟩ := List.mem_map.1 c
          obtain ⟨p, hp, hpk⟩ := ((h.pos k hk).2 _).1 a
          rw [hold u (by simp [hu])] at hp
          cases hp
          exact hm2 u hu hpk
      · rintro ⟨a, b⟩
        exact ⟨a, fun c => b (by rw [List.map_append]; exact List.mem_append_left _ c)⟩
    · rw [hp1 k e]
      refine (h.pos k hk).keep _ hpos hold hkN (fun u hu => ?_)
      rcases List.mem_append.1 hu with hu | hu
      · rw [h1 u hu]; exact Ne.symm e
      · rintro rfl; exact (h2 u hu).untracked hk
  · intro p hp hU
    obtain ⟨s, hs⟩ := List.mem_iff_getElem?.1 hp
    by_cases hsp : s ∈ (us1 ++ us2).map Prod.fst
    · obtain ⟨u, hu, rfl⟩ := List.mem_map.1 hsp
      rw [setAll_get _ hpos pairs (fun u hu => (List.getElem?_eq_some_iff.1 (hold u hu)).1) u hu] at hs
      cases hs
      exact absurd hU (hN1 _ (by rw [hNe]; exact List.mem_map_of_mem hu)).2.1
    · rw [setAll_get_ne _ hsp] at hs
      exact h.bad p (List.mem_of_getElem? hs) hU

/-- a multiple link that is left at most once need not be watched any more -/
theorem Rep.dropPend {m : α × α} {t : List (α × α)} (h : Rep stubs U0 (m :: t) tk pos pairs lk)
    (hl : (pos m).length ≤ 1) : Rep stubs U0 t tk pos pairs lk := by
  have hc := (h.pos m (.inr (.inl (by simp)))).cnt
  refine ⟨⟨h.slots.deg, h.slots.lk, fun q h1 h2 h3 => ?_⟩, fun k hk => h.pos k ?_, h.bad,
    fun k hk => h.pendOk k (by simp [hk]), h.tkOk⟩
  · by_cases e : q = m
    · subst e; omega
    · exact h.slots.one q h1 h2 (by simp [e, h3])
  · rcases hk with hk | hk | hk
    · exact .inl hk
    · exact .inr (.inl (by simp [hk]))
    · exact .inr (.inr hk)

/-- a taken link that is gone -/
theorem Rep.dropTk {m : α × α} {t : List (α × α)} (h : Rep stubs U0 pend (m :: t) pos pairs lk)
    (hl : pos m = []) : Rep stubs U0 pend t pos pairs lk := by
  refine ⟨h.slots, fun k hk => h.pos k ?_, fun p hp hU => ?_, h.pendOk, fun k hk => h.tkOk k (by simp [hk])⟩
  · rcases hk with hk | hk | hk
    · exact .inl hk
    · exact .inr (.inl hk)
    · exact .inr (.inr (by simp [hk]))
  · rcases List.mem_cons.1 (h.bad p hp hU) with e | e
    · obtain ⟨s, hs⟩ := List.mem_iff_getElem?.1 hp
      have := ((h.pos m (.inr (.inr (by simp)))).2 s).2 ⟨p, hs, e⟩
      rw [hl] at this
      cases this
    · exact e

theorem Rep.congrPos {pos' : α × α → List Nat} (h : Rep stubs U0 pend tk pos pairs lk)
    (hp : ∀ m, Tracked pend tk m → pos' m = pos m) : Rep stubs U0 pend tk pos' pairs lk :=
  ⟨h.slots, fun k hk => hp k hk ▸ h.pos k hk, h.bad, h.pendOk, h.tkOk⟩

theorem Rep.congrLk {lk' : α × α → Prop} (h : Rep stubs U0 pend tk pos pairs lk) (hl : ∀ q, lk' q ↔ lk q) :
    Rep stubs U0 pend tk pos pairs lk' :=
  ⟨⟨h.slots.deg, fun q => (hl q).trans (h.slots.lk q), h.slots.one⟩, h.pos, h.bad, h.pendOk, h.tkOk⟩

end

/-! ### the network -/

section
variable {W σ : Type} [DecidableEq W] [Zero W] [One W]

/-- the links `lk` have weight 1, all others 0 -/
def Rel (R : α → α → W) (lk : α × α → Prop) : Prop :=
  (∀ a b, lk (srt a b) → R a b = 1) ∧ (∀ a b, ¬ lk (srt a b) → R a b = 0)

/-- The network has the links `lk`; its nodes are in `Sup` and include the ends of the links and `zeros`. -/
def NetOf (P : σ → (α → Prop) → (α → α → W) → Prop) (Sup : α → Prop) (zeros : List α) (net : σ)
    (lk : α × α → Prop) : Prop :=
  ∃ S R, P net S R ∧ Rel R lk ∧ (∀ a b, lk (srt a b) → S a) ∧ (∀ a, S a → Sup a) ∧ ∀ a ∈ zeros, S a

variable {T : Target σ α W} {P : σ → (α → Prop) → (α → α → W) → Prop} {Sup : α → Prop} {zeros : List α} {net : σ}
  {lk : α × α → Prop}

theorem NetOf.congr {lk' : α × α → Prop} (h : NetOf P Sup zeros net lk) (hl : ∀ q, lk' q ↔ lk q) :
    NetOf P Sup zeros net lk' := by
  obtain rfl : lk' = lk := funext fun q => propext (hl q)
  exact h

theorem srt_eq_upd {a b i j : α} : srt a b = srt i j ↔ (a = i ∧ b = j) ∨ (a = j ∧ b = i) := srt_eq_iff

theorem NetOf.set0 (F : Fills T P) (h : NetOf P Sup zeros net lk) {i j : α} (hij : i ≠ j) (hi : Sup i) (hj : Sup j) :
    ∃ net', T.set net i j 0 = .ok net' ∧ NetOf P Sup zeros net' (fun q => lk q ∧ q ≠ srt i j) := by
  obtain ⟨S, R, h1, h2, h3, h4, h5⟩ := h
  obtain ⟨net', e, h6⟩ := F.set h1 hij 0
  refine ⟨net', e, _, _, h6, ⟨fun a b hab => ?_, fun a b hab => ?_⟩, fun a b hab => .inl (h3 a b hab.1), ?_,
    fun a ha => .inl (h5 a ha)⟩
  · rw [upd, if_neg (fun e => hab.2 (srt_eq_upd.2 e))]; exact h2.1 a b hab.1
  · rw [upd]
    split
    · rfl
    · rename_i hne
      exact h2.2 a b (fun hl => hab ⟨hl, fun e => hne (srt_eq_upd.1 e)⟩)
  · rintro a (ha | rfl | rfl)
    · exact h4 a ha
    · exact hi
    · exact hj

theorem NetOf.set1 (F : Fills T P) (h : NetOf P Sup zeros net lk) {i j : α} (hij : i ≠ j) (hi : Sup i) (hj : Sup j) :
    ∃ net', T.set net i j 1 = .ok net' ∧ NetOf P Sup zeros net' (fun q => lk q ∨ q = srt i j) := by
  obtain ⟨S, R, h1, h2, h3, h4, h5⟩ := h
  obtain ⟨net', e, h6⟩ := F.set h1 hij 1
  refine ⟨net', e, _, _, h6, ⟨fun a b hab => ?_, fun a b hab => ?_⟩, ?_, ?_,
    fun a ha => .inl (h5 a ha)⟩
  · rw [upd]
    split
    · rfl
    · rename_i hne
      exact h2.1 a b (hab.resolve_right fun e => hne (srt_eq_upd.1 e))
  · rw [upd, if_neg (fun e => hab (.inr (srt_eq_upd.2 e)))]
    exact h2.2 a b (fun hl => hab (.inl hl))
  · rintro a b (hab | hab)
    · exact .inl (h3 a b hab)
    · rcases srt_eq_upd.1 hab with e | e
      · exact .inr (.inl e.1)
      · exact .inr (.inr e.1)
  · rintro a (ha | rfl | rfl)
    · exact h4 a ha
    · exact hi
    · exact hj

theorem NetOf.get [NeZero (1 : W)] (F : Fills T P) (h : NetOf P Sup zeros net lk) (i j : α) :
    ∃ w, T.get net i j = .ok w ∧ (w = 0 ↔ ¬ lk (srt i j)) ∧ (w = 1 ↔ lk (srt i j)) := by
  obtain ⟨S, R, h1, h2, -⟩ := h
  refine ⟨R i j, F.get h1 i j, ?_, ?_⟩
  · by_cases hl : lk (srt i j)
    · simp [h2.1 i j hl, hl]
    · simp [h2.2 i j hl, hl]
  · by_cases hl : lk (srt i j)
    · simp [h2.1 i j hl, hl]
    · simp only [h2.2 i j hl, hl, iff_false]; exact fun e => one_ne_zero e.symm

theorem NetOf.allZero [NeZero (1 : W)] (F : Fills T P) (h : NetOf P Sup zeros net lk) (L : List (α × α)) :
    ∃ b, allZero T net L = .ok b ∧ (b = true ↔ ∀ q ∈ L, ¬ lk (key q)) := by
  induction L with
  | nil => exact ⟨true, rfl, by simp⟩
  | cons q t ih =>
    obtain ⟨w, e, hw, -⟩ := h.get F q.1 q.2
    unfold Models.allZero
    rw [e]
    dsimp only
    by_cases hz : w = 0
    · obtain ⟨b, hb, hb2⟩ := ih
      rw [if_pos hz]
      refine ⟨b, hb, hb2.trans ?_⟩
      simp only [List.mem_cons, forall_eq_or_imp]
      exact ⟨fun h => ⟨hw.1 hz, h⟩, And.right⟩
    · rw [if_neg hz]
      refine ⟨false, rfl, by simp only [Bool.false_eq_true, false_iff]; exact fun h => hz (hw.2 (h q (by simp)))⟩

theorem NetOf.assertOnes [NeZero (1 : W)] (F : Fills T P) (h : NetOf P Sup zeros net lk) (L : List (α × α))
    (hL : ∀ q ∈ L, lk (key q)) : assertOnes T net L = .ok () := by
  induction L with
  | nil => rfl
  | cons q t ih =>
    obtain ⟨w, e, -, hw⟩ := h.get F q.1 q.2
    unfold Models.assertOnes
    rw [e]
    dsimp only
    rw [if_pos (hw.2 (hL q (by simp)))]
    exact ih fun q hq => hL q (by simp [hq])

theorem NetOf.writes (F : Fills T P) (h : NetOf P Sup zeros net lk) (D N : List (α × α))
    (hD : ∀ q ∈ D ++ N, q.1 ≠ q.2 ∧ Sup q.1 ∧ Sup q.2) :
    ∃ net', writes T (D.map (·, (0 : W)) ++ N.map (·, (1 : W))) net = .ok net' ∧
      NetOf P Sup zeros net' (fun x => (lk x ∧ x ∉ D.map key) ∨ x ∈ N.map key) := by
  induction D generalizing net lk with
  | nil =>
    simp only [List.map_nil, List.nil_append, List.not_mem_nil, not_false_iff, and_true]
    induction N generalizing net lk with
    | nil => exact ⟨net, rfl, h.congr (by simp)⟩
    | cons q t ih =>
      obtain ⟨a, b, c⟩ := hD q (by simp)
      obtain ⟨n1, e1, h1⟩ := h.set1 F a b c
      obtain ⟨n2, e2, h2⟩ := ih h1 (fun q hq => hD q (by simp at hq; simp [hq]))
      refine ⟨n2, ?_, h2.congr fun x => ?_⟩
      · unfold Models.writes at *
        rw [List.map_cons, forE, e1]; exact e2
      · simp only [List.map_cons, List.mem_cons, or_assoc]; rfl
  | cons q t ih =>
    obtain ⟨a, b, c⟩ := hD q (by simp)
    obtain ⟨n1, e1, h1⟩ := h.set0 F a b c
    obtain ⟨n2, e2, h2⟩ := ih h1 (fun q hq => hD q (by simp at hq ⊢; tauto))
    refine ⟨n2, ?_, h2.congr fun x => ?_⟩
    · unfold Models.writes at *
      rw [List.map_cons, List.cons_append, forE, e1]; exact e2
    · simp only [List.map_cons, List.mem_cons, not_or, and_assoc]; rfl

end

end Pymnet
