import Verif.Proofs.Repair

/-! The three kinds of exchanges the configuration models make. -/

set_option linter.unusedSectionVars false

namespace Pymnet

open Py Models

variable {α : Type} [DecidableEq α] [LinearOrder α]
variable {stubs : List α} {U0 : α × α → Prop} {pend tk : List (α × α)} {pos : α × α → List Nat}
  {pairs : List (α × α)} {lk : α × α → Prop}

theorem key_cases (p : α × α) : key p = p ∨ key p = (p.2, p.1) := srt_cases p.1 p.2

theorem endsAt_key (x : α) (p : α × α) : endsAt x (key p) = endsAt x p := endsAt_srt x p.1 p.2

/-- the sorted ends of two pairs are distinct if the ends are -/
theorem nodup_keys {l : List α} {p1 p2 : α × α} (h : (l ++ [p1.1, p1.2, p2.1, p2.2]).Nodup) :
    (l ++ [(key p1).1, (key p1).2, (key p2).1, (key p2).2]).Nodup := by
  refine h.perm (List.Perm.append_left _ ?_)
  rcases key_cases p1 with e | e <;> rcases key_cases p2 with e' | e' <;> rw [e, e']
  · exact .cons _ (.cons _ (.swap _ _ _))
  · exact .swap _ _ _
  · exact (List.Perm.swap _ _ _).trans (.cons _ (.cons _ (.swap _ _ _)))

theorem srt_fst_ne_snd {a b : α} (h : a ≠ b) : (srt a b).1 ≠ (srt a b).2 := fun e => h (srt_diag.1 e)

/-- an exchange that removes a self-link -/
theorem Rep.selfSwap (h : Rep stubs U0 pend tk pos pairs lk) {node : α} {si : Nat} {post : List Nat}
    (hpos : pos (node, node) = si :: post) {e1 e2 : Nat} (he : e1 ≠ e2) {p1 p2 : α × α} (hp1 : pairs[e1]? = some p1)
    (hp2 : pairs[e2]? = some p2) (hn : [node, p1.1, p1.2, p2.1, p2.2].Nodup) (hq1 : key p1 ∉ pend ∧ key p1 ∉ tk)
    (hq2 : key p2 ∉ pend ∧ key p2 ∉ tk) (hlive : ∀ k ∈ pend, lk k)
    (hnew : ∀ q ∈ [(node, (key p1).1), (node, (key p2).1), ((key p1).2, (key p2).2)], ¬ U0 (key q) ∧ ¬ lk (key q)) :
    Rep stubs U0 pend tk (Function.update pos (node, node) post)
      (((pairs.set si (srt (key p1).2 (key p2).2)).set e1 (srt node (key p1).1)).set e2 (srt node (key p2).1))
      (fun x => (lk x ∧ x ∉ [key p1, key p2].map key) ∨
        x ∈ [(node, (key p1).1), (node, (key p2).1), ((key p1).2, (key p2).2)].map key) ∧
    (∀ k ∈ pend, (lk k ∧ k ∉ [key p1, key p2].map key) ∨
        k ∈ [(node, (key p1).1), (node, (key p2).1), ((key p1).2, (key p2).2)].map key) ∧
    lk (key p1) ∧ lk (key p2) := by
  have hnk := nodup_keys (l := [node]) hn
  have d1 : p1.1 ≠ p1.2 := by simp at hn; tauto
  have d2 : p2.1 ≠ p2.2 := by simp at hn; tauto
  have g1 : Good pend tk p1 := ⟨d1, hq1⟩
  have g2 : Good pend tk p2 := ⟨d2, hq2⟩
  have t := h.pos (node, node) (.inl rfl)
  obtain ⟨p0, hp0, hk0⟩ := (t.2 si).1 (by rw [hpos]; simp)
  obtain ⟨q1, q2, hq⟩ : ∃ q1 q2, key p1 = (q1, q2) := ⟨_, _, rfl⟩
  obtain ⟨r1, r2, hr⟩ : ∃ r1 r2, key p2 = (r1, r2) := ⟨_, _, rfl⟩
  have en : ∀ x, endsAt x p1 = endsAt x (q1, q2) := fun x => by rw [← hq, endsAt_key]
  have en2 : ∀ x, endsAt x p2 = endsAt x (r1, r2) := fun x => by rw [← hr, endsAt_key]
  have en0 : ∀ x, endsAt x p0 = endsAt x (node, node) := fun x => by rw [← hk0, endsAt_key]
  have l1 := (h.good hp1 g1).2.1
  have l2 := (h.good hp2 g2).2.1
  have hs1 : si ≠ e1 := by
    rintro rfl
    rw [hp0] at hp1; cases hp1
    exact g1.untracked (.inl (by rw [hk0]))
  have hs2 : si ≠ e2 := by
    rintro rfl
    rw [hp0] at hp2; cases hp2
    exact g2.untracked (.inl (by rw [hk0]))
  have hqr : key p1 ≠ key p2 := by
    rw [hq, hr]; rintro e; cases e
    rw [hq, hr] at hnk; simp at hnk
  have hkq : key (q1, q2) = (q1, q2) := by rw [← hq, key_key]
  have hkr : key (r1, r2) = (r1, r2) := by rw [← hr, key_key]
  rw [hq, hr] at hnk hnew ⊢
  rw [hq] at l1; rw [hr] at l2
  simp only [List.mem_cons, List.not_mem_nil, or_false, forall_eq_or_imp, forall_eq] at hnew
  obtain ⟨⟨u1, n1⟩, ⟨u2, n2⟩, ⟨u3, n3⟩⟩ := hnew
  simp only [List.cons_append, List.nil_append, List.nodup_cons, List.mem_cons, List.not_mem_nil, or_false, not_or,
    not_false_iff, List.nodup_nil, and_true] at hnk
  obtain ⟨⟨m1, m2, m3, m4⟩, ⟨m5, m6, m7⟩, ⟨m8, m9⟩, m10⟩ := hnk
  have hlk : ∀ x, ((lk x ∧ x ∉ [(q1, q2), (r1, r2)].map key) ∨
        x ∈ [(node, q1), (node, r1), (q2, r2)].map key) ↔
      (lk x ∧ x ∉ [(q1, q2), (r1, r2)]) ∨ x ∈ [srt q2 r2, srt node q1, srt node r1] := by
    intro x
    simp only [List.map_cons, List.map_nil, hkq, hkr, List.mem_cons, List.not_mem_nil, or_false]
    simp only [key]
    tauto
  refine ⟨?_, ?_, l1, l2⟩
  · refine Rep.congrLk ?_ hlk
    have hsw := h.swap (m := (node, node)) (.inl rfl) [(si, p0, srt q2 r2)] [(e1, p1, srt node q1), (e2, p2, srt node r1)]
      (by simp [hs1, hs2, he]) (by simp [hp0, hp1, hp2]) (by simp [hk0]) (by simp) (by simp [g1, g2])
      (by simp [hqr]) (by
        intro a
        simp only [List.cons_append, List.nil_append, List.map_cons, List.map_nil, List.sum_cons, List.sum_nil, en0, en, en2,
          endsAt_srt]
        simp only [endsAt]; omega)
      (D := [(q1, q2), (r1, r2)]) (N := [srt q2 r2, srt node q1, srt node r1])
      (by simp [key_srt]) (by
        simp only [List.nodup_cons, List.mem_cons, List.not_mem_nil, or_false, not_or, srt_eq_iff, not_false_iff, and_true,
          List.nodup_nil]
        tauto)
      (by
        simp only [List.mem_cons, List.not_mem_nil, or_false, forall_eq_or_imp, forall_eq]
        exact ⟨⟨srt_fst_ne_snd m9, u3, n3⟩, ⟨srt_fst_ne_snd m1, u1, n1⟩, srt_fst_ne_snd m3, u2, n2⟩)
      (by
        simp only [List.mem_cons, List.not_mem_nil, or_false, forall_eq_or_imp, forall_eq]
        exact ⟨fun e => n3 (hlive _ e), fun e => n1 (hlive _ e), fun e => n2 (hlive _ e)⟩)
      (by
        intro q
        have : ¬ ((node, node) ∈ pend) := fun e => (h.pendOk _ e).1 rfl
        simp [hq, hr, this])
      (pos' := Function.update pos (node, node) post)
      (fun k hk => Function.update_of_ne hk _ _) (by
        rw [Function.update_self]
        have := t.1; rw [hpos] at this
        exact this.of_cons) (by
        intro s
        rw [Function.update_self, hpos]
        have := t.1; rw [hpos] at this
        simp only [List.map_cons, List.map_nil, List.mem_cons, List.not_mem_nil, or_false]
        have hnp := (List.nodup_cons.1 this).1
        constructor
        · intro hs; exact ⟨.inr hs, fun e => hnp (e ▸ hs)⟩
        · rintro ⟨h1 | h1, h2⟩
          · exact absurd h1 h2
          · exact h1)
    exact hsw
  · intro k hk
    left
    refine ⟨hlive k hk, ?_⟩
    simp only [List.map_cons, List.map_nil, hkq, hkr, List.mem_cons, List.not_mem_nil, or_false]
    rw [← hq, ← hr]
    rintro (rfl | rfl)
    · exact hq1.1 hk
    · exact hq2.1 hk

/-- an exchange that removes two copies of a multiple link -/
theorem Rep.multiSwap (h : Rep stubs U0 pend tk pos pairs lk) {m : α × α} (hm : m ∈ pend) (hmk : key m = m)
    {i j : Nat} {rest : List Nat} (hpos : pos m = rest ++ [j, i])
    {e1 e2 : Nat} (he : e1 ≠ e2) {p1 p2 : α × α} (hp1 : pairs[e1]? = some p1)
    (hp2 : pairs[e2]? = some p2) (hn : [m.1, m.2, p1.1, p1.2, p2.1, p2.2].Nodup) (hq1 : key p1 ∉ pend ∧ key p1 ∉ tk)
    (hq2 : key p2 ∉ pend ∧ key p2 ∉ tk) (hlive : ∀ k ∈ pend, lk k)
    (hnew : ∀ q ∈ [(m.1, (key p1).1), (m.2, (key p1).2), (m.1, (key p2).1), (m.2, (key p2).2)],
      ¬ U0 (key q) ∧ ¬ lk (key q)) {D : List (α × α)}
    (hD : ∀ q, q ∈ D ↔ q = key p1 ∨ q = key p2 ∨ (q = m ∧ rest = [])) :
    Rep stubs U0 pend tk (Function.update pos m rest)
      ((((pairs.set (min i j) (srt m.1 (key p1).1)).set (max i j) (srt m.2 (key p1).2)).set e1
        (srt m.1 (key p2).1)).set e2 (srt m.2 (key p2).2))
      (fun x => (lk x ∧ x ∉ D) ∨
        x ∈ [(m.1, (key p1).1), (m.2, (key p1).2), (m.1, (key p2).1), (m.2, (key p2).2)].map key) ∧
    (∀ k ∈ pend, (k ≠ m ∨ rest ≠ []) → (lk k ∧ k ∉ D) ∨
        k ∈ [(m.1, (key p1).1), (m.2, (key p1).2), (m.1, (key p2).1), (m.2, (key p2).2)].map key) ∧
    lk (key p1) ∧ lk (key p2) := by
  have hnk := nodup_keys (l := [m.1, m.2]) hn
  have d1 : p1.1 ≠ p1.2 := by simp at hn; tauto
  have d2 : p2.1 ≠ p2.2 := by simp at hn; tauto
  have g1 : Good pend tk p1 := ⟨d1, hq1⟩
  have g2 : Good pend tk p2 := ⟨d2, hq2⟩
  have hmt : Tracked pend tk m := .inr (.inl hm)
  have t := h.pos m hmt
  obtain ⟨pi, hpi, hki⟩ := (t.2 i).1 (by rw [hpos]; simp)
  obtain ⟨pj, hpj, hkj⟩ := (t.2 j).1 (by rw [hpos]; simp)
  have tn := t.1
  rw [hpos] at tn
  have hij : j ≠ i := by
    have := (List.nodup_append.1 tn).2.1
    simpa using this
  -- positions in increasing order
  obtain ⟨a, b, pa, pb, hab, hpa, hpb, hka, hkb, hma, hmb, hset⟩ : ∃ a b pa pb, a ≠ b ∧ pairs[a]? = some pa ∧
      pairs[b]? = some pb ∧ key pa = m ∧ key pb = m ∧ min i j = a ∧ max i j = b ∧
      (∀ s, s = a ∨ s = b ↔ s = j ∨ s = i) := by
    rcases lt_or_gt_of_ne hij with hlt | hlt
    · exact ⟨j, i, pj, pi, hij, hpj, hpi, hkj, hki, min_eq_right hlt.le, max_eq_left hlt.le, fun s => Iff.rfl⟩
    · exact ⟨i, j, pi, pj, hij.symm, hpi, hpj, hki, hkj, min_eq_left hlt.le, max_eq_right hlt.le, fun s => or_comm⟩
  rw [hma, hmb]
  obtain ⟨q1, q2, hq⟩ : ∃ q1 q2, key p1 = (q1, q2) := ⟨_, _, rfl⟩
  obtain ⟨r1, r2, hr⟩ : ∃ r1 r2, key p2 = (r1, r2) := ⟨_, _, rfl⟩
  have en : ∀ x, endsAt x p1 = endsAt x (q1, q2) := fun x => by rw [← hq, endsAt_key]
  have en2 : ∀ x, endsAt x p2 = endsAt x (r1, r2) := fun x => by rw [← hr, endsAt_key]
  have ena : ∀ x, endsAt x pa = endsAt x m := fun x => by rw [← hka, endsAt_key]
  have enb : ∀ x, endsAt x pb = endsAt x m := fun x => by rw [← hkb, endsAt_key]
  have l1 := (h.good hp1 g1).2.1
  have l2 := (h.good hp2 g2).2.1
  have away : ∀ {s e : Nat} {p p' : α × α}, pairs[s]? = some p → key p = m → pairs[e]? = some p' → Good pend tk p' →
      s ≠ e := by
    rintro s e p p' hs hk hs' hg rfl
    rw [hs] at hs'; cases hs'
    exact hg.untracked (hk ▸ hmt)
  have hqr : key p1 ≠ key p2 := by
    rw [hq, hr]; rintro e; cases e
    rw [hq, hr] at hnk; simp at hnk
  have hp1m : key p1 ≠ m := fun e => hq1.1 (e ▸ hm)
  have hp2m : key p2 ≠ m := fun e => hq2.1 (e ▸ hm)
  have hnotpend : (q1, q2) ∉ pend ∧ (r1, r2) ∉ pend := by rw [← hq, ← hr]; exact ⟨hq1.1, hq2.1⟩
  rw [hq, hr] at hnk hnew ⊢
  rw [hq] at l1; rw [hr] at l2
  simp only [hq, hr] at hD
  simp only [List.mem_cons, List.not_mem_nil, or_false, forall_eq_or_imp, forall_eq] at hnew
  obtain ⟨⟨u1, n1⟩, ⟨u2, n2⟩, ⟨u3, n3⟩, ⟨u4, n4⟩⟩ := hnew
  simp only [List.cons_append, List.nil_append, List.nodup_cons, List.mem_cons, List.not_mem_nil, or_false, not_or,
    not_false_iff, List.nodup_nil, and_true] at hnk
  obtain ⟨⟨m1, m2, m3, m4, m5⟩, ⟨m6, m7, m8, m9⟩, ⟨m10, m11, m12⟩, ⟨m13, m14⟩, m15⟩ := hnk
  refine ⟨?_, ?_, l1, l2⟩
  · have hsw := h.swap hmt [(a, pa, srt m.1 q1), (b, pb, srt m.2 q2)] [(e1, p1, srt m.1 r1), (e2, p2, srt m.2 r2)]
      (by simp [hab, he, away hpa hka hp1 g1, away hpa hka hp2 g2, away hpb hkb hp1 g1, away hpb hkb hp2 g2])
      (by simp [hpa, hpb, hp1, hp2]) (by simp [hka, hkb]) (by simp) (by simp [g1, g2])
      (by simp [hqr]) (by
        intro x
        simp only [List.cons_append, List.nil_append, List.map_cons, List.map_nil, List.sum_cons, List.sum_nil, ena, enb, en,
          en2, endsAt_srt]
        simp only [endsAt]; omega)
      (D := D) (N := [(m.1, q1), (m.2, q2), (m.1, r1), (m.2, r2)].map key)
      (by simp [key_srt]; simp [key]) (by
        simp only [List.map_cons, List.map_nil, key, List.nodup_cons, List.mem_cons, List.not_mem_nil, or_false, not_or,
          srt_eq_iff, not_false_iff, and_true, List.nodup_nil]
        tauto)
      (by
        simp only [List.map_cons, List.map_nil, List.mem_cons, List.not_mem_nil, or_false, forall_eq_or_imp, forall_eq]
        exact ⟨⟨srt_fst_ne_snd m2, u1, n1⟩, ⟨srt_fst_ne_snd m7, u2, n2⟩, ⟨srt_fst_ne_snd m4, u3, n3⟩,
          srt_fst_ne_snd m9, u4, n4⟩)
      (by
        simp only [List.map_cons, List.map_nil, List.mem_cons, List.not_mem_nil, or_false, forall_eq_or_imp, forall_eq]
        exact ⟨fun e => n1 (hlive _ e), fun e => n2 (hlive _ e), fun e => n3 (hlive _ e), fun e => n4 (hlive _ e)⟩)
      (by
        intro q
        rw [hD, hpos]
        simp [hq, hr, hm, or_assoc])
      (pos' := Function.update pos m rest)
      (fun k hk => Function.update_of_ne hk _ _) (by
        rw [Function.update_self]
        exact (List.nodup_append.1 tn).1) (by
        intro s
        rw [Function.update_self, hpos]
        simp only [List.map_cons, List.map_nil, List.mem_append, List.mem_cons, List.not_mem_nil, or_false, hset]
        have hnp := (List.nodup_append.1 tn).2.2
        constructor
        · intro hs; exact ⟨.inl hs, fun e => hnp s hs s (by simpa using e) rfl⟩
        · rintro ⟨h1 | h1, h2⟩
          · exact h1
          · exact absurd h1 h2)
    exact hsw
  · intro k hk hne
    left
    refine ⟨hlive k hk, ?_⟩
    rw [hD]
    rintro (rfl | rfl | ⟨rfl, e⟩)
    · exact hnotpend.1 hk
    · exact hnotpend.2 hk
    · exact hne.elim (fun h => h rfl) (fun h => h e)

/-- an exchange that removes a taken link -/
theorem Rep.takenSwap (h : Rep stubs U0 pend tk pos pairs lk) {m : α × α} (hm : m ∈ tk) (hpe : pend = [])
    {si : Nat} {post : List Nat} (hpos : pos m = si :: post)
    {e1 e2 : Nat} (he : e1 ≠ e2) {p1 p2 : α × α} (hp1 : pairs[e1]? = some p1)
    (hp2 : pairs[e2]? = some p2) (hn : [m.1, m.2, p1.1, p1.2, p2.1, p2.2].Nodup) (hq1 : key p1 ∉ tk)
    (hq2 : key p2 ∉ tk)
    (hnew : ∀ q ∈ [(m.1, (key p1).1), (m.2, (key p2).1), ((key p1).2, (key p2).2)], ¬ U0 (key q) ∧ ¬ lk (key q)) :
    Rep stubs U0 pend tk (Function.update pos m post)
      (((pairs.set si (srt m.1 (key p1).1)).set e1 (srt m.2 (key p2).1)).set e2 (srt (key p1).2 (key p2).2))
      (fun x => (lk x ∧ x ∉ [key p1, key p2].map key) ∨
        x ∈ [(m.1, (key p1).1), (m.2, (key p2).1), ((key p1).2, (key p2).2)].map key) ∧
    lk (key p1) ∧ lk (key p2) := by
  subst hpe
  have hnk := nodup_keys (l := [m.1, m.2]) hn
  have d1 : p1.1 ≠ p1.2 := by simp at hn; tauto
  have d2 : p2.1 ≠ p2.2 := by simp at hn; tauto
  have g1 : Good [] tk p1 := ⟨d1, by simp, hq1⟩
  have g2 : Good [] tk p2 := ⟨d2, by simp, hq2⟩
  have hmt : Tracked [] tk m := .inr (.inr hm)
  have t := h.pos m hmt
  obtain ⟨p0, hp0, hk0⟩ := (t.2 si).1 (by rw [hpos]; simp)
  obtain ⟨q1, q2, hq⟩ : ∃ q1 q2, key p1 = (q1, q2) := ⟨_, _, rfl⟩
  obtain ⟨r1, r2, hr⟩ : ∃ r1 r2, key p2 = (r1, r2) := ⟨_, _, rfl⟩
  have en : ∀ x, endsAt x p1 = endsAt x (q1, q2) := fun x => by rw [← hq, endsAt_key]
  have en2 : ∀ x, endsAt x p2 = endsAt x (r1, r2) := fun x => by rw [← hr, endsAt_key]
  have en0 : ∀ x, endsAt x p0 = endsAt x m := fun x => by rw [← hk0, endsAt_key]
  have l1 := (h.good hp1 g1).2.1
  have l2 := (h.good hp2 g2).2.1
  have hs1 : si ≠ e1 := by
    rintro rfl
    rw [hp0] at hp1; cases hp1
    exact g1.untracked (hk0 ▸ hmt)
  have hs2 : si ≠ e2 := by
    rintro rfl
    rw [hp0] at hp2; cases hp2
    exact g2.untracked (hk0 ▸ hmt)
  have hqr : key p1 ≠ key p2 := by
    rw [hq, hr]; rintro e; cases e
    rw [hq, hr] at hnk; simp at hnk
  have hkq : key (q1, q2) = (q1, q2) := by rw [← hq, key_key]
  have hkr : key (r1, r2) = (r1, r2) := by rw [← hr, key_key]
  rw [hq, hr] at hnk hnew ⊢
  rw [hq] at l1; rw [hr] at l2
  simp only [List.mem_cons, List.not_mem_nil, or_false, forall_eq_or_imp, forall_eq] at hnew
  obtain ⟨⟨u1, n1⟩, ⟨u2, n2⟩, ⟨u3, n3⟩⟩ := hnew
  simp only [List.cons_append, List.nil_append, List.nodup_cons, List.mem_cons, List.not_mem_nil, or_false, not_or,
    not_false_iff, List.nodup_nil, and_true] at hnk
  obtain ⟨⟨m1, m2, m3, m4, m5⟩, ⟨m6, m7, m8, m9⟩, ⟨m10, m11, m12⟩, ⟨m13, m14⟩, m15⟩ := hnk
  refine ⟨?_, l1, l2⟩
  have hsw := h.swap hmt [(si, p0, srt m.1 q1)] [(e1, p1, srt m.2 r1), (e2, p2, srt q2 r2)]
      (by simp [hs1, hs2, he]) (by simp [hp0, hp1, hp2]) (by simp [hk0]) (by simp) (by simp [g1, g2])
      (by simp [hqr]) (by
        intro a
        simp only [List.cons_append, List.nil_append, List.map_cons, List.map_nil, List.sum_cons, List.sum_nil, en0, en, en2,
          endsAt_srt]
        simp only [endsAt]; omega)
      (D := [(q1, q2), (r1, r2)].map key) (N := [(m.1, q1), (m.2, r1), (q2, r2)].map key)
      (by simp [key_srt]; simp [key]) (by
        simp only [List.map_cons, List.map_nil, key, List.nodup_cons, List.mem_cons, List.not_mem_nil, or_false, not_or,
          srt_eq_iff, not_false_iff, and_true, List.nodup_nil]
        tauto)
      (by
        simp only [List.map_cons, List.map_nil, List.mem_cons, List.not_mem_nil, or_false, forall_eq_or_imp, forall_eq]
        exact ⟨⟨srt_fst_ne_snd m2, u1, n1⟩, ⟨srt_fst_ne_snd m8, u2, n2⟩, srt_fst_ne_snd m14, u3, n3⟩)
      (by simp)
      (by
        intro q
        simp [hq, hr, hkq, hkr])
      (pos' := Function.update pos m post)
      (fun k hk => Function.update_of_ne hk _ _) (by
        rw [Function.update_self]
        have := t.1; rw [hpos] at this
        exact this.of_cons) (by
        intro s
        rw [Function.update_self, hpos]
        have := t.1; rw [hpos] at this
        simp only [List.map_cons, List.map_nil, List.mem_cons, List.not_mem_nil, or_false]
        have hnp := (List.nodup_cons.1 this).1
        constructor
        · intro hs; exact ⟨.inr hs, fun e => hnp (e ▸ hs)⟩
        · rintro ⟨h1 | h1, h2⟩
          · exact absurd h1 h2
          · exact h1)
  exact hsw

end Pymnet
