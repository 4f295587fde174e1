import Verif.Proofs.Net

/-! Effect of writing and deleting a link. -/

set_option linter.unusedSectionVars false
set_option linter.unusedSimpArgs false

namespace Pymnet

open Py

variable {α W : Type} [DecidableEq α] [DecidableEq W]

namespace MNet

theorem isSome_set_of_get {κ ν : Type} [DecidableEq κ] {d : Dict κ ν} {a : κ} {i j : ν}
    (h : Dict.get d a = some i) (x : κ) :
    (Dict.get (Dict.set d a j) x).isSome = (Dict.get d x).isSome := by
  rw [Dict.get_set]; split
  · rename_i e; subst e; simp [h]
  · rfl

theorem putNet_spec {m : MNet α W} (wf : WF2 m.net) {a : List α}
    (hk : (Dict.get m.net a).isSome = true) (b : List α) (v : W) :
    ∃ nt, m.putNet a b v = ({ m with net := nt }, none) ∧ WF2 nt ∧
      (∀ x y, get2 nt x y = if a = x ∧ b = y then some v else get2 m.net x y) ∧
      (∀ x, (Dict.get nt x).isSome = (Dict.get m.net x).isSome) := by
  obtain ⟨i, hi⟩ := Option.isSome_iff_exists.1 hk
  exact ⟨_, by simp [putNet, hi], wf.set a (Dict.nodup_keys_set (wf.inner a i hi) b v),
    get2_set_set hi b v, isSome_set_of_get hi⟩

theorem putRnet_spec {m : MNet α W} (wf : WF2 m.rnet) {a : List α}
    (hk : (Dict.get m.rnet a).isSome = true) (b : List α) (v : W) :
    ∃ nt, m.putRnet a b v = ({ m with rnet := nt }, none) ∧ WF2 nt ∧
      (∀ x y, get2 nt x y = if a = x ∧ b = y then some v else get2 m.rnet x y) ∧
      (∀ x, (Dict.get nt x).isSome = (Dict.get m.rnet x).isSome) := by
  obtain ⟨i, hi⟩ := Option.isSome_iff_exists.1 hk
  exact ⟨_, by simp [putRnet, hi], wf.set a (Dict.nodup_keys_set (wf.inner a i hi) b v),
    get2_set_set hi b v, isSome_set_of_get hi⟩

theorem delNet_spec {m : MNet α W} (wf : WF2 m.net) {a b : List α}
    (hk : (m.lk a b).isSome = true) :
    ∃ nt, m.delNet a b = ({ m with net := nt }, none) ∧ WF2 nt ∧
      (∀ x y, get2 nt x y = if a = x ∧ b = y then none else get2 m.net x y) ∧
      (∀ x, (Dict.get nt x).isSome = (Dict.get m.net x).isSome) := by
  cases hi : Dict.get m.net a with
  | none => simp [lk, get2, hi] at hk
  | some i =>
    have hb : Dict.has i b = true := by rw [lk_isSome hi, hk]
    exact ⟨_, by simp [delNet, hi, hb], wf.set a (Dict.nodup_keys_del (wf.inner a i hi) b),
      get2_set_del hi b, isSome_set_of_get hi⟩

theorem delNet_missing {m : MNet α W} {a b : List α} (hk : m.lk a b = none) :
    m.delNet a b = (m, some .keyError) := by
  unfold delNet
  cases hi : Dict.get m.net a with
  | none => rfl
  | some i =>
    have hb : Dict.has i b = false := by rw [lk_isSome hi, hk]; rfl
    simp [hb]

theorem delRnet_spec {m : MNet α W} (wf : WF2 m.rnet) {a b : List α}
    (hk : (m.rlk a b).isSome = true) :
    ∃ nt, m.delRnet a b = ({ m with rnet := nt }, none) ∧ WF2 nt ∧
      (∀ x y, get2 nt x y = if a = x ∧ b = y then none else get2 m.rnet x y) ∧
      (∀ x, (Dict.get nt x).isSome = (Dict.get m.rnet x).isSome) := by
  cases hi : Dict.get m.rnet a with
  | none => simp [rlk, get2, hi] at hk
  | some i =>
    have hb : Dict.has i b = true := by rw [rlk_isSome hi, hk]
    exact ⟨_, by simp [delRnet, hi, hb], wf.set a (Dict.nodup_keys_del (wf.inner a i hi) b),
      get2_set_del hi b, isSome_set_of_get hi⟩

/-- Effect of writing a value other than `noEdge`. -/
theorem putLink_spec {m : MNet α W} (h : m.LInv) (n1 n2 : List α) {v : W} (hv : v ≠ m.noEdge) :
    (m.putLink n1 n2 v).2 = none ∧ LFrame m (m.putLink n1 n2 v).1 ∧ (m.putLink n1 n2 v).1.LInv ∧
    (∀ a b, (m.putLink n1 n2 v).1.lk a b =
      if (a = n1 ∧ b = n2) ∨ (m.directed = false ∧ a = n2 ∧ b = n1) then some v else m.lk a b) ∧
    (m.directed = true → ∀ x, (m.putLink n1 n2 v).1.total x = m.total x +
      if m.lk n1 n2 = none ∧ m.lk n2 n1 = none ∧ (x = n1 ∨ x = n2) then 1 else 0) := by
  obtain ⟨l1, k1, rk1, t1, s1⟩ := addKey_spec h n1
  obtain ⟨l2, k2, rk2, t2, s2⟩ := addKey_spec l1 n2
  have fr : LFrame m ((m.addKey n1).addKey n2) := (addKey_lframe m n1).trans (addKey_lframe _ n2)
  obtain ⟨f1, f2, f3, f4, f5, f6, f7⟩ := fr.fields
  unfold putLink
  set m1 := (m.addKey n1).addKey n2 with hm1
  have hlk1 : ∀ a b, m1.lk a b = m.lk a b := fun a b => by rw [k2, k1]
  have hp1 : (Dict.get m1.net n1).isSome = true := by rw [s2, s1]; simp
  have hp2 : (Dict.get m1.net n2).isSome = true := by rw [s2]; simp
  have htot : ∀ x, m1.total x = m.total x := by intro x; simp [total, t2, t1]
  simp only
  cases hd : m.directed with
  | false =>
    have hd1 : m1.directed = false := by rw [f2, hd]
    simp only [hd1, Bool.false_eq_true, if_false]
    obtain ⟨nt, e1, w1, g1, q1⟩ := putNet_spec l2.wf hp2 n1 v
    rw [e1]
    simp only [Outcome.andThen_ok]
    obtain ⟨nt', e2, w2, g2, q2⟩ := putNet_spec (m := { m1 with net := nt }) w1
      (a := n1) (by simp only [q1]; exact hp1) n2 v
    rw [e2]
    have hlk : ∀ a b, get2 nt' a b =
        if (a = n1 ∧ b = n2) ∨ (a = n2 ∧ b = n1) then some v else m.lk a b := by
      intro a b
      rw [g2]; simp only; rw [g1, ← hlk1]
      unfold lk
      by_cases c1 : n1 = a ∧ n2 = b
      · simp [c1.1, c1.2]
      · by_cases c2 : n2 = a ∧ n1 = b
        · simp [c2.1, c2.2]
        · rw [if_neg c1, if_neg c2, if_neg]
          rintro (⟨rfl, rfl⟩ | ⟨rfl, rfl⟩)
          · exact c1 ⟨rfl, rfl⟩
          · exact c2 ⟨rfl, rfl⟩
    refine ⟨rfl, fr.trans rfl, ⟨w2, l2.rwf, ?_, ?_, ?_, ?_, ?_⟩, ?_, by simp⟩
    · intro _ a b
      change get2 nt' a b = get2 nt' b a
      rw [hlk, hlk, h.sym hd a b]
      have : ((a = n1 ∧ b = n2) ∨ (a = n2 ∧ b = n1)) ↔ ((b = n1 ∧ a = n2) ∨ (b = n2 ∧ a = n1)) := by
        constructor <;> rintro (⟨h1, h2⟩ | ⟨h1, h2⟩) <;> simp [h1, h2]
      simp only [this]
    · intro hdt; rw [hd1] at hdt; cases hdt
    · intro hdt; rw [hd1] at hdt; cases hdt
    · intro a b w hw
      change get2 nt' a b = some w at hw
      rw [hlk] at hw
      split at hw
      · cases hw; rw [f3]; exact hv
      · rw [f3]; exact h.val a b w hw
    · intro hdt; rw [hd1] at hdt; cases hdt
    · intro a b
      change get2 nt' a b = _
      rw [hlk]; simp
  | true =>
    have hd1 : m1.directed = true := by rw [f2, hd]
    simp only [hd1, if_true]
    obtain ⟨td, e0, tk1, tk2, tk3⟩ := putTotals_spec l2 hd1 n1 n2 hp1 hp2
    rw [e0]
    simp only [Outcome.andThen_ok]
    obtain ⟨rn, e1, w1, g1, q1⟩ := putRnet_spec (m := { m1 with totalDegree := td }) l2.rwf (a := n2)
      (by simp only; rw [l2.rkeys hd1]; exact hp2) n1 v
    rw [e1]
    simp only [Outcome.andThen_ok]
    obtain ⟨nt, e2, w2, g2, q2⟩ := putNet_spec (m := { m1 with totalDegree := td, rnet := rn }) l2.wf
      (a := n1) hp1 n2 v
    rw [e2]
    have hlk : ∀ a b, get2 nt a b = if (a = n1 ∧ b = n2) then some v else m.lk a b := by
      intro a b
      rw [g2]; simp only; rw [← hlk1]
      unfold lk
      by_cases c1 : n1 = a ∧ n2 = b
      · simp [c1.1, c1.2]
      · rw [if_neg c1, if_neg]
        rintro ⟨rfl, rfl⟩; exact c1 ⟨rfl, rfl⟩
    refine ⟨rfl, fr.trans rfl, ⟨w2, w1, ?_, ?_, ?_, ?_, ?_⟩, ?_, ?_⟩
    · intro hdt; change m1.directed = false at hdt; rw [hd1] at hdt; cases hdt
    · intro _ a b
      change get2 rn b a = get2 nt a b
      rw [g1, hlk]
      have := l2.mirror hd1 a b
      simp only [hlk1] at this
      unfold rlk at this
      simp only
      rw [this]
      by_cases c1 : n2 = b ∧ n1 = a
      · simp [c1.1, c1.2]
      · rw [if_neg c1, if_neg]
        rintro ⟨rfl, rfl⟩; exact c1 ⟨rfl, rfl⟩
    · intro _ a
      change (Dict.get rn a).isSome = (Dict.get nt a).isSome
      rw [q1, q2]; exact l2.rkeys hd1 a
    · intro a b w hw
      change get2 nt a b = some w at hw
      rw [hlk] at hw
      split at hw
      · cases hw; change v ≠ m1.noEdge; rw [f3]; exact hv
      · change w ≠ m1.noEdge; rw [f3]; exact h.val a b w hw
    · intro _ a b w hw
      change get2 nt a b = some w at hw
      change (Dict.get td a).isSome = true ∧ (Dict.get td b).isSome = true
      rw [hlk] at hw
      have old : ∀ a b w, m.lk a b = some w → (Dict.get td a).isSome = true ∧ (Dict.get td b).isSome = true := by
        intro a b w hw
        have := l2.tkeys hd1 a b w (by rw [hlk1]; exact hw)
        exact ⟨tk1 _ this.1, tk1 _ this.2⟩
      split at hw
      · rename_i hc
        obtain ⟨rfl, rfl⟩ := hc
        cases hx : m.lk a b with
        | some w' => exact old a b w' hx
        | none =>
          cases hy : m.lk b a with
          | some w' => exact (old b a w' hy).symm
          | none => exact tk2 (by rw [hlk1]; exact hx) (by rw [hlk1]; exact hy)
      · exact old a b w hw
    · intro a b
      change get2 nt a b = _
      rw [hlk]; simp
    · intro _ x
      change (Dict.get td x).getD 0 = _
      rw [tk3, htot]; simp only [hlk1]

/-- Effect of writing `noEdge`. In an undirected network a stored self-link is removed but the call
raises `KeyError`. -/
theorem delLink_spec {m : MNet α W} (h : m.LInv) (n1 n2 : List α) :
    ((m.delLink n1 n2).2 = if m.directed = false ∧ n1 = n2 ∧ (m.lk n1 n2).isSome = true
      then some .keyError else none) ∧
    LFrame m (m.delLink n1 n2).1 ∧ (m.delLink n1 n2).1.LInv ∧
    (∀ a b, (m.delLink n1 n2).1.lk a b =
      if (a = n1 ∧ b = n2) ∨ (m.directed = false ∧ a = n2 ∧ b = n1) then none else m.lk a b) ∧
    (m.directed = true → ∀ x, (m.delLink n1 n2).1.total x = m.total x -
      if (m.lk n1 n2).isSome = true ∧ (n1 = n2 ∨ m.lk n2 n1 = none) ∧ x = n1 then 1 else 0) := by
  -- nothing stored: nothing happens
  have nothing : m.lk n1 n2 = none → m.delLink n1 n2 = (m, none) := by
    intro hl
    unfold delLink
    cases hi : Dict.get m.net n1 with
    | none => rfl
    | some i =>
      have hb : Dict.has i n2 = false := by rw [lk_isSome hi, hl]; rfl
      simp [hb]
  cases hl : m.lk n1 n2 with
  | none =>
    rw [nothing hl]
    refine ⟨by simp, LFrame.refl m, h, ?_, by simp⟩
    intro a b
    split
    · rename_i hc
      rcases hc with ⟨rfl, rfl⟩ | ⟨hd, rfl, rfl⟩
      · exact hl
      · rw [h.sym hd]; exact hl
    · rfl
  | some w =>
    have hsome : (m.lk n1 n2).isSome = true := by simp [hl]
    obtain ⟨i, hi⟩ : ∃ i, Dict.get m.net n1 = some i := by
      cases hi : Dict.get m.net n1 with
      | none => simp [lk, get2, hi] at hl
      | some i => exact ⟨i, rfl⟩
    have hb : Dict.has i n2 = true := by rw [lk_isSome hi, hsome]
    unfold delLink
    rw [hi]
    simp only [hb, if_true]
    cases hd : m.directed with
    | false =>
      simp only [Bool.false_eq_true, if_false]
      have hs21 : (m.lk n2 n1).isSome = true := by rw [h.sym hd, hsome]
      obtain ⟨nt, e1, w1, g1, q1⟩ := delNet_spec h.wf hs21
      rw [e1]
      simp only [Outcome.andThen_ok]
      by_cases hself : n1 = n2
      · -- self-link: the second `del` raises
        subst hself
        have hmiss : ({ m with net := nt } : MNet α W).lk n1 n1 = none := by
          change get2 nt n1 n1 = none
          rw [g1]; simp
        rw [delNet_missing hmiss]
        have hlk : ∀ a b, get2 nt a b = if (a = n1 ∧ b = n1) then none else m.lk a b := by
          intro a b; rw [g1]; unfold lk
          by_cases c : n1 = a ∧ n1 = b
          · simp [← c.1, ← c.2]
          · rw [if_neg c, if_neg]; rintro ⟨rfl, rfl⟩; exact c ⟨rfl, rfl⟩
        refine ⟨by simp, rfl, ⟨w1, h.rwf, ?_, ?_, ?_, ?_, ?_⟩, ?_, by simp⟩
        · intro _ a b
          change get2 nt a b = get2 nt b a
          rw [hlk, hlk, h.sym hd a b]
          simp only [and_comm]
        · intro hdt; change m.directed = true at hdt; rw [hd] at hdt; cases hdt
        · intro hdt; change m.directed = true at hdt; rw [hd] at hdt; cases hdt
        · intro a b w hw
          change get2 nt a b = some w at hw
          rw [hlk] at hw
          split at hw
          · cases hw
          · exact h.val a b w hw
        · intro hdt; change m.directed = true at hdt; rw [hd] at hdt; cases hdt
        · intro a b
          change get2 nt a b = _
          rw [hlk]; simp
      · have hkeep : (({ m with net := nt } : MNet α W).lk n1 n2).isSome = true := by
          change (get2 nt n1 n2).isSome = true
          rw [g1, if_neg (fun c => hself c.2)]
          exact hsome
        obtain ⟨nt', e2, w2, g2, q2⟩ := delNet_spec (m := { m with net := nt }) w1 hkeep
        rw [e2]
        have hlk : ∀ a b, get2 nt' a b =
            if (a = n1 ∧ b = n2) ∨ (a = n2 ∧ b = n1) then none else m.lk a b := by
          intro a b
          rw [g2]; simp only; rw [g1]; unfold lk
          by_cases c1 : n1 = a ∧ n2 = b
          · simp [← c1.1, ← c1.2]
          · by_cases c2 : n2 = a ∧ n1 = b
            · simp [← c2.1, ← c2.2]
            · rw [if_neg c1, if_neg c2, if_neg]
              rintro (⟨rfl, rfl⟩ | ⟨rfl, rfl⟩)
              · exact c1 ⟨rfl, rfl⟩
              · exact c2 ⟨rfl, rfl⟩
        refine ⟨by simp [hself], rfl, ⟨w2, h.rwf, ?_, ?_, ?_, ?_, ?_⟩, ?_, by simp⟩
        · intro _ a b
          change get2 nt' a b = get2 nt' b a
          rw [hlk, hlk, h.sym hd a b]
          have : ((a = n1 ∧ b = n2) ∨ (a = n2 ∧ b = n1)) ↔ ((b = n1 ∧ a = n2) ∨ (b = n2 ∧ a = n1)) := by
            constructor <;> rintro (⟨h1, h2⟩ | ⟨h1, h2⟩) <;> simp [h1, h2]
          simp only [this]
        · intro hdt; change m.directed = true at hdt; rw [hd] at hdt; cases hdt
        · intro hdt; change m.directed = true at hdt; rw [hd] at hdt; cases hdt
        · intro a b w hw
          change get2 nt' a b = some w at hw
          rw [hlk] at hw
          split at hw
          · cases hw
          · exact h.val a b w hw
        · intro hdt; change m.directed = true at hdt; rw [hd] at hdt; cases hdt
        · intro a b
          change get2 nt' a b = _
          rw [hlk]; simp
    | true =>
      simp only [if_true]
      have htk := h.tkeys hd n1 n2 w hl
      -- the counters
      obtain ⟨td, e0, tk1, tk2⟩ : ∃ td, m.delTotals n1 n2 = ({ m with totalDegree := td }, none) ∧
          (∀ x, (Dict.get m.totalDegree x).isSome = true → (Dict.get td x).isSome = true) ∧
          (∀ x, (Dict.get td x).getD 0 = m.total x -
            if (n1 = n2 ∨ m.lk n2 n1 = none) ∧ x = n1 then 1 else 0) := by
        unfold delTotals
        by_cases hself : n1 = n2
        · subst hself
          simp only [if_true]
          refine ⟨(m.bumpTotal n1 (-1)).totalDegree, rfl, ?_, ?_⟩
          · intro x hx; unfold bumpTotal; simp only [Dict.get_set]; split
            · rfl
            · exact hx
          · intro x
            have := bumpTotal_total m n1 (-1) x
            change (m.bumpTotal n1 (-1)).total x = _
            rw [this]
            by_cases hx : x = n1 <;> simp [hx]
            omega
        · simp only [hself, if_false]
          have hr21 : (m.rlk n2 n1).isSome = true := by rw [h.mirror hd]; exact hsome
          have hr12 : m.rlk n1 n2 = m.lk n2 n1 := h.mirror hd n2 n1
          have second : ∀ td, ({ m with totalDegree := td } : MNet α W).notInRnet n2 n1 = false := by
            intro td
            unfold notInRnet
            simp only
            cases hi2 : Dict.get m.rnet n2 with
            | none => simp [rlk, get2, hi2] at hr21
            | some i2 => simp only; rw [rlk_isSome hi2, hr21]; rfl
          have first : m.notInRnet n1 n2 = !(m.lk n2 n1).isSome := by
            unfold notInRnet
            cases hi2 : Dict.get m.rnet n1 with
            | none => simp only; rw [← hr12]; simp [rlk, get2, hi2]
            | some i2 => simp only; rw [rlk_isSome hi2, hr12]
          rw [first]
          cases hl2 : m.lk n2 n1 with
          | some w2 =>
            simp only [Option.isSome_some, Bool.not_true, Bool.false_eq_true, if_false,
              Outcome.andThen_ok]
            have := second m.totalDegree
            rw [if_neg (by rw [show m.notInRnet n2 n1 = false from this]; simp)]
            exact ⟨m.totalDegree, rfl, fun x hx => hx, fun x => by simp [total]⟩
          | none =>
            simp only [Option.isSome_none, Bool.not_false, if_true]
            obtain ⟨k, hk⟩ := Option.isSome_iff_exists.1 htk.1
            have hdec : m.decTotalStrict n1 =
                ({ m with totalDegree := Dict.set m.totalDegree n1 (k - 1) }, none) := by
              simp [decTotalStrict, hk]
            rw [hdec]
            simp only [Outcome.andThen_ok]
            rw [if_neg (by rw [second]; simp)]
            refine ⟨_, rfl, ?_, ?_⟩
            · intro x hx; rw [isSome_set_of_get hk]; exact hx
            · intro x
              rw [Dict.get_set]
              by_cases hx : n1 = x
              · subst hx; simp [total, hk]
              · have : ¬ x = n1 := fun e => hx e.symm
                simp [hx, this, total]
      rw [e0]
      simp only [Outcome.andThen_ok]
      obtain ⟨rn, e1, w1, g1, q1⟩ := delRnet_spec (m := { m with totalDegree := td }) h.rwf
        (a := n2) (b := n1) (by
          change (m.rlk n2 n1).isSome = true
          rw [h.mirror hd]; exact hsome)
      rw [e1]
      simp only [Outcome.andThen_ok]
      obtain ⟨nt, e2, w2, g2, q2⟩ := delNet_spec (m := { m with totalDegree := td, rnet := rn }) h.wf
        (a := n1) (b := n2) hsome
      rw [e2]
      have hlk : ∀ a b, get2 nt a b = if (a = n1 ∧ b = n2) then none else m.lk a b := by
        intro a b
        rw [g2]; unfold lk
        by_cases c1 : n1 = a ∧ n2 = b
        · simp [← c1.1, ← c1.2]
        · rw [if_neg c1, if_neg]
          rintro ⟨rfl, rfl⟩; exact c1 ⟨rfl, rfl⟩
      refine ⟨by simp, rfl, ⟨w2, w1, ?_, ?_, ?_, ?_, ?_⟩, ?_, ?_⟩
      · intro hdt; change m.directed = false at hdt; rw [hd] at hdt; cases hdt
      · intro _ a b
        change get2 rn b a = get2 nt a b
        rw [g1, hlk]
        have := h.mirror hd a b
        unfold rlk at this
        simp only
        rw [this]
        by_cases c1 : n2 = b ∧ n1 = a
        · simp [← c1.1, ← c1.2]
        · rw [if_neg c1, if_neg]
          rintro ⟨rfl, rfl⟩; exact c1 ⟨rfl, rfl⟩
      · intro _ a
        change (Dict.get rn a).isSome = (Dict.get nt a).isSome
        rw [q1, q2]; exact h.rkeys hd a
      · intro a b w hw
        change get2 nt a b = some w at hw
        rw [hlk] at hw
        split at hw
        · cases hw
        · exact h.val a b w hw
      · intro _ a b w hw
        change get2 nt a b = some w at hw
        change (Dict.get td a).isSome = true ∧ (Dict.get td b).isSome = true
        rw [hlk] at hw
        split at hw
        · cases hw
        · have := h.tkeys hd a b w hw
          exact ⟨tk1 _ this.1, tk1 _ this.2⟩
      · intro a b
        change get2 nt a b = _
        rw [hlk]; simp
      · intro _ x
        change (Dict.get td x).getD 0 = _
        rw [tk2]; simp

end MNet

end Pymnet
