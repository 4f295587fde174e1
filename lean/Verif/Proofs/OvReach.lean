import Verif.Proofs.OvComb

/-! `conf_overlaps` can return every network with the given overlap degrees. -/

set_option linter.unusedSectionVars false

namespace Pymnet

open Py Models

variable {α W σ τ : Type} [DecidableEq α] [DecidableEq W] [LinearOrder α] [Zero W] [One W]

section
variable {T : Target σ α W} {P : σ → (α → Prop) → (α → α → W) → Prop} {stubs zeros : List α} {U0 : α × α → Prop}

/-- without self-links, multiple links and taken links nothing is repaired -/
theorem ovStubs_returns [NeZero (1 : W)] (F : Fills T P) {s : σ} {nstubs nodes : Nat}
    (h : NetOf P (fun a => a ∈ stubs ∨ a ∈ zeros) zeros s (fun _ => False)) {used : List (α × α)}
    (hu : used.Nodup) (hU : ∀ q, q ∈ used ↔ U0 q)
    (heven : nstubs % 2 = 0) (hroom : nstubs ≤ nodes * (nodes - 1)) {sh : List α} (hperm : sh.Perm stubs)
    (hone : ∀ q, cnt q (toPairs sh) ≤ 1) (hdiag : ∀ p ∈ toPairs sh, p.1 ≠ p.2) (hfree : ∀ p ∈ toPairs sh, ¬ U0 (key p)) :
    ∃ r, ovStubs T nstubs nodes stubs ⟨[], sh, [], [], []⟩ used s = .ok r ∧
      NetOf P (fun a => a ∈ stubs ∨ a ∈ zeros) zeros r.1 (fun q => 0 < cnt q (toPairs sh)) ∧
      Used U0 (fun q => 0 < cnt q (toPairs sh)) r.2 := by
  unfold ovStubs
  rw [if_neg (by omega), if_neg (by omega), if_neg (by simpa using hperm)]
  obtain ⟨f, e1, hf⟩ := ovLinks_ok F h hu hU (pairs := toPairs sh) (fun p hp => by
    have := mem_toPairs _ p hp
    exact ⟨hperm.mem_iff.1 this.1, hperm.mem_iff.1 this.2⟩)
  simp only [e1]
  have hm : f.multi = [] := List.eq_nil_iff_forall_not_mem.2 fun q hq => by
    have := ((hf.multi q).1 hq).2.2
    have := hone q
    omega
  have ht : f.taken = [] := List.eq_nil_iff_forall_not_mem.2 fun q hq => by
    have := ((hf.taken q).1 hq).2
    obtain ⟨p, hp, rfl⟩ := cnt_pos.1 this.2
    exact hfree p hp this.1
  have hs : ∀ x ∈ f.selfs, x.2 = [] := by
    rintro ⟨k, l⟩ hx
    have h1 := hf.selfs k
    rw [Dict.get_of_mem hf.keys hx] at h1
    simp only [Option.getD_some] at h1
    refine List.eq_nil_iff_forall_not_mem.2 fun i hi => ?_
    rw [h1] at hi
    obtain ⟨p, hp, hk⟩ := ((hf.eti (k, k)).2 i).1 hi
    exact hdiag p (List.mem_of_getElem? hp) (srt_diag.1 (show (key p).1 = (key p).2 by rw [hk]))
  unfold ovRepair
  rw [forS_id f.selfs (fun x hx => by rw [hs x hx]; rfl), hm, ht]
  simp only [List.Perm.refl, not_true, if_false, forS]
  have hq : ∀ q : α × α, (0 < cnt q (toPairs sh)) ↔ (q.1 ≠ q.2 ∧ ¬ U0 q ∧ 0 < cnt q (toPairs sh)) := by
    intro q
    constructor
    · intro hq
      obtain ⟨p, hp, rfl⟩ := cnt_pos.1 hq
      exact ⟨fun e => hdiag p hp (srt_diag.1 e), hfree p hp, hq⟩
    · exact fun hq => hq.2.2
  exact ⟨_, rfl, hf.net.congr hq, hf.used.congr hq⟩

end

/-- the degrees of a simple network fit -/
theorem Spec.HasDegrees.room [NeZero (1 : W)] {d : Dict α Nat} (hn : (d.map Prod.fst).Nodup) {R : α → α → W}
    (hR : Spec.HasDegrees R fun x => (Dict.get d x).getD 0) :
    (d.map Prod.snd).sum ≤ List.length d * (List.length d - 1) := by
  have hsup : ∀ a, a ∉ d.map Prod.fst → (Dict.get d a).getD 0 = 0 := fun a ha => by
    rw [Dict.get_eq_none.2 ha]; rfl
  refine sum_le_of_forall fun x hx => ?_
  obtain ⟨L, l1, l2, l3⟩ := hR.degree x.1
  rw [Dict.get_of_mem hn hx, Option.getD_some] at l3
  have hsub : ∀ b ∈ L, b ∈ (d.map Prod.fst).erase x.1 := by
    intro b hb
    have hb1 := (l2 b).1 hb
    have hne : b ≠ x.1 := by
      rintro rfl
      rw [hR.noSelf] at hb1; exact absurd hb1 (NeZero.ne' 1)
    rw [List.mem_erase_of_ne hne]
    by_contra hb2
    obtain ⟨L', -, m2, m3⟩ := hR.degree b
    rw [hsup b hb2, List.length_eq_zero_iff] at m3
    have := (m2 x.1).2 (by rw [hR.symm]; exact hb1)
    simp [m3] at this
  have := (List.subperm_of_subset l1 hsub).length_le
  rw [List.length_erase_of_mem (List.mem_map_of_mem hx), List.length_map] at this
  omega

/-- the shuffled stubs are the links `R`, without repairs -/
def ShufflesTo (d : Dict α Nat) (R : α → α → W) (rnd : ConfRandom α) : Prop :=
  ∃ E : List (α × α), rnd = ⟨[], flatE E, [], [], []⟩ ∧ (∀ q, cnt q E ≤ 1) ∧ (∀ p ∈ E, p.1 ≠ p.2) ∧
    (∀ a b, R a b = 1 ↔ 0 < cnt (srt a b) E) ∧ ∀ a, (flatE E).count a = (Dict.get d a).getD 0

theorem ovComb_returns [NeZero (1 : W)] {coupling : Coupling α W} {pre : List (List α × Dict α Nat)}
    {R : List α → α → α → W} {st : MPlex α W × List (α × α)} (h : OvInvC coupling pre R st)
    {c : List α × Dict α Nat} (hc : c.1 ∉ pre.map Prod.fst) (hk : (c.2.map Prod.fst).Nodup)
    (hR : Spec.HasDegrees (R c.1) fun x => (Dict.get c.2 x).getD 0)
    (hdis : ∀ c' ∈ pre, ∀ a b, R c'.1 a b = 1 → R c.1 a b = 0)
    {rnd : List α → ConfRandom α} (hr : ShufflesTo c.2 (R c.1) (rnd c.1)) :
    ∃ st', ovComb rnd st c = .ok st' ∧ OvInvC coupling (pre ++ [c]) R st' := by
  obtain ⟨E, hrnd, hone, hdiag, hE, hcount⟩ := hr
  obtain ⟨s1, e1, h1⟩ := stubsNodes_ok fills_net (BuiltM.init (α := α) (W := W)) c.2
  have hperm : (flatE E).Perm (stubsOf c.2) := List.perm_iff_count.2 fun a => by rw [hcount, count_stubsOf hk]
  have hlen : (stubsOf c.2).length = (c.2.map Prod.snd).sum := length_stubsOf c.2
  have hflat : (c.2.map Prod.snd).sum = 2 * E.length := by rw [← hlen, ← hperm.length_eq, length_flatE]
  have hroom := hR.room hk
  have hnew : ∀ a b, R c.1 a b = 1 → srt a b ∉ st.2 := by
    intro a b hab hu
    obtain ⟨-, c', hc', hu⟩ := (h.used _).1 hu
    have := hdis c' hc' _ _ hu
    rcases srt_cases a b with e | e <;> rw [e] at this
    · rw [hab] at this; exact one_ne_zero this
    · rw [hR.symm, hab] at this; exact one_ne_zero this
  obtain ⟨r, e2, h2, h3⟩ := ovStubs_returns fills_net (stubs := stubsOf c.2) (zeros := zerosOf c.2) (s := s1)
    (nstubs := (c.2.map Prod.snd).sum) (nodes := List.length c.2) ⟨_, _, h1, ⟨fun _ _ h => h.elim, fun _ _ _ => rfl⟩,
    fun _ _ h => h.elim, fun a ha => .inr ha, fun a ha => ha⟩ h.nodup (fun q => Iff.rfl) (by omega) hroom hperm
    (by rw [toPairs_flatE]; exact hone) (by rw [toPairs_flatE]; exact hdiag) (by
      rw [toPairs_flatE]
      intro p hp
      exact hnew p.1 p.2 ((hE _ _).2 (cnt_pos.2 ⟨p, hp, rfl⟩)))
  rw [toPairs_flatE] at h2 h3
  obtain ⟨S, R', k3, k4, -⟩ := h2
  have hRR : R' = R c.1 := by
    funext a b
    by_cases hl : 0 < cnt (srt a b) E
    · rw [k4.1 a b hl, (hE a b).2 hl]
    · rw [k4.2 a b hl]
      rcases hR.weights a b with e | e
      · exact e.symm
      · exact absurd ((hE a b).1 e) hl
  subst hRR
  obtain ⟨es, net', f1, f2, f3⟩ := h.add hc k3 hR ⟨by omega, hroom⟩ hnew h3.1 (fun q => by
    rw [h3.2]
    refine or_congr_right ⟨fun hq => ?_, ?_⟩
    · obtain ⟨p, hp, rfl⟩ := cnt_pos.1 hq
      exact ⟨key_key p, (hE _ _).2 (by rw [show srt (key p).1 (key p).2 = key p from key_key p]; exact hq)⟩
    · rintro ⟨a, b⟩
      have := (hE _ _).1 b
      rw [show srt q.1 q.2 = q from a] at this
      exact this)
  rw [Function.update_eq_self] at f3
  unfold ovComb
  rw [e1]
  dsimp only
  rw [hrnd, e2]
  dsimp only
  rw [f1]
  dsimp only
  rw [f2]
  exact ⟨_, rfl, f3⟩

theorem confOverlaps_reaches [NeZero (1 : W)] (coupling : Coupling α W) {degs : Dict (List α) (Dict α Nat)}
    (hk : (degs.map Prod.fst).Nodup) (hkd : ∀ c ∈ degs, (c.2.map Prod.fst).Nodup) {R : List α → α → α → W}
    (hR : ∀ c ∈ degs, Spec.HasDegrees (R c.1) fun x => (Dict.get c.2 x).getD 0)
    (hdis : ∀ c ∈ degs, ∀ c' ∈ degs, c.1 ≠ c'.1 → ∀ a b, R c.1 a b = 1 → R c'.1 a b = 0) :
    ∃ rnd p, confOverlaps degs coupling rnd = .ok p ∧ OvBuilt coupling (degs.map Prod.fst) R p := by
  have hex : ∀ c : List α, ∃ rnd, ∀ d, (c, d) ∈ degs → ShufflesTo d (R c) rnd := by
    intro c
    by_cases hc : ∃ d, (c, d) ∈ degs
    · obtain ⟨d, hd⟩ := hc
      obtain ⟨E, h1, h2, h3, h4⟩ := exists_edges (hkd _ hd) (hR _ hd) fun a ha => by rw [Dict.get_eq_none.2 ha]; rfl
      refine ⟨_, fun d' hd' => ⟨E, rfl, h1, h2, h3, ?_⟩⟩
      have : d' = d := by
        have e1 := Dict.get_of_mem hk hd
        have e2 := Dict.get_of_mem hk hd'
        rw [e1] at e2; exact (Option.some.inj e2).symm
      rw [this]; exact h4
    · exact ⟨⟨[], [], [], [], []⟩, fun d hd => absurd ⟨d, hd⟩ hc⟩
  choose rnd hrnd using hex
  obtain ⟨st, e, h⟩ := forS_returns (f := ovComb rnd) (P := fun pre st => OvInvC coupling pre R st) degs
    (s := (MPlex.init [coupling] false 0 true, []))
    ⟨BuiltP.congr (BuiltP.init coupling true).anyNL (by simp) (by simp) (fun _ _ => Iff.rfl) (by simp),
      by simp, by simp, by simp, by simp, by simp⟩ (by
      rintro pre c post st hl h
      have hc : c ∈ degs := by rw [hl]; simp
      have hnm : c.1 ∉ pre.map Prod.fst := by
        rw [hl, List.map_append, List.map_cons] at hk
        intro hm
        exact (List.nodup_append.1 hk).2.2 _ hm _ (by simp) rfl
      have hp : ∀ c' ∈ pre, c' ∈ degs := fun c' hc' => by rw [hl]; simp [hc']
      exact ovComb_returns h hnm (hkd c hc) (hR c hc)
        (fun c' hc' => hdis c' (hp c' hc') c hc fun e => hnm (e ▸ List.mem_map_of_mem hc')) (hrnd c.1 c.2 hc))
  exact ⟨rnd, st.1, by simp only [confOverlaps, e], h.net⟩

end Pymnet
