import Verif.Proofs.OvLoop

/-! One layer combination of `conf_overlaps`: what holds when it returns, and when it raises. -/

set_option linter.unusedSectionVars false

namespace Pymnet

open Py Models

variable {α W σ τ : Type} [DecidableEq α] [DecidableEq W] [LinearOrder α] [Zero W] [One W]

section
variable {T : Target σ α W} {P : σ → (α → Prop) → (α → α → W) → Prop} {stubs zeros : List α} {U0 : α × α → Prop}

/-- the state of the loop that links the stubs, after the pairs `pre` -/
structure OLInv (P : σ → (α → Prop) → (α → α → W) → Prop) (stubs zeros : List α) (U0 : α × α → Prop)
    (pre : List (α × α)) (f : OFound σ α) : Prop where
  net : NetOf P (fun a => a ∈ stubs ∨ a ∈ zeros) zeros f.net (fun q => q.1 ≠ q.2 ∧ ¬ U0 q ∧ 0 < cnt q pre)
  used : Used U0 (fun q => q.1 ≠ q.2 ∧ ¬ U0 q ∧ 0 < cnt q pre) f.used
  eti : ∀ k, Tracks pre k ((Dict.get f.eti k).getD [])
  nodup : f.multi.Nodup
  multi : ∀ q, q ∈ f.multi ↔ q.1 ≠ q.2 ∧ ¬ U0 q ∧ 2 ≤ cnt q pre
  tnodup : f.taken.Nodup
  taken : ∀ q, q ∈ f.taken ↔ q.1 ≠ q.2 ∧ U0 q ∧ 0 < cnt q pre
  selfs : ∀ x, (Dict.get f.selfs x).getD [] = (Dict.get f.eti (x, x)).getD []
  keys : (Dict.keys f.selfs).Nodup

theorem ovLink_ok [NeZero (1 : W)] (F : Fills T P) {pre : List (α × α)} {f : OFound σ α}
    (h : OLInv P stubs zeros U0 pre f) {p : α × α} (hp : p.1 ∈ stubs ∧ p.2 ∈ stubs) :
    ∃ f', ovLink T f (p, pre.length) = .ok f' ∧ OLInv P stubs zeros U0 (pre ++ [p]) f' := by
  have hs := key_pair_stubs hp
  have heti : ∀ k, Tracks (pre ++ [p]) k ((Dict.get (appendAt f.eti (srt p.1 p.2) pre.length) k).getD []) := by
    intro k
    rw [get_appendAt]
    exact (h.eti k).append p
  -- pairs other than the new one
  have hold : ∀ q, key p ≠ q → cnt q (pre ++ [p]) = cnt q pre := fun q e => by rw [cnt_append, if_neg e, Nat.add_zero]
  have hnew : cnt (srt p.1 p.2) (pre ++ [p]) = cnt (srt p.1 p.2) pre + 1 := by
    rw [cnt_append, if_pos (show key p = srt p.1 p.2 from rfl)]
  have hselfs : (srt p.1 p.2).1 ≠ (srt p.1 p.2).2 → ∀ x, (Dict.get f.selfs x).getD [] =
      (Dict.get (appendAt f.eti (srt p.1 p.2) pre.length) (x, x)).getD [] := by
    intro hd x
    rw [get_appendAt, h.selfs x, if_neg]
    intro e; rw [e] at hd; exact hd rfl
  unfold ovLink
  dsimp only
  by_cases hd : (srt p.1 p.2).1 = (srt p.1 p.2).2
  · rw [if_pos hd]
    have hdq : ∀ {A : Prop} {q : α × α}, (key p ≠ q → A) → (q.1 ≠ q.2 → A) := by
      intro A q h1 h2
      refine h1 ?_
      rintro rfl
      exact h2 hd
    have e1 : ∀ q : α × α, (q.1 ≠ q.2 ∧ ¬ U0 q ∧ 0 < cnt q (pre ++ [p])) ↔ (q.1 ≠ q.2 ∧ ¬ U0 q ∧ 0 < cnt q pre) :=
      fun q => and_congr_right (hdq fun e => by rw [hold q e])
    refine ⟨_, rfl, h.net.congr e1, h.used.congr e1, heti, h.nodup, fun q => (h.multi q).trans ?_, h.tnodup,
      fun q => (h.taken q).trans ?_, fun x => ?_, Dict.nodup_keys_set h.keys _ _⟩
    · exact and_congr_right (hdq fun e => by rw [hold q e])
    · exact and_congr_right (hdq fun e => by rw [hold q e])
    · rw [get_appendAt, get_appendAt, h.selfs x]
      have e : srt p.1 p.2 = (x, x) ↔ (srt p.1 p.2).1 = x :=
        ⟨fun e => by rw [e], fun e => Prod.ext e (hd ▸ e)⟩
      by_cases e2 : (srt p.1 p.2).1 = x
      · rw [if_pos e2, if_pos (e.2 e2)]
      · rw [if_neg e2, if_neg (fun e3 => e2 (e.1 e3))]
  rw [if_neg hd]
  obtain ⟨w, hw, hw0, -⟩ := h.net.get F (srt p.1 p.2).1 (srt p.1 p.2).2
  rw [srt_idem] at hw0
  simp only [hw]
  by_cases hz : w = 0
  swap
  · -- a multiple link
    rw [if_pos hz]
    have hz' : (srt p.1 p.2).1 ≠ (srt p.1 p.2).2 ∧ ¬ U0 (srt p.1 p.2) ∧ 0 < cnt (srt p.1 p.2) pre := by
      by_contra hc; exact hz (hw0.2 hc)
    have e1 : ∀ q : α × α, (q.1 ≠ q.2 ∧ ¬ U0 q ∧ 0 < cnt q (pre ++ [p])) ↔ (q.1 ≠ q.2 ∧ ¬ U0 q ∧ 0 < cnt q pre) := by
      intro q
      by_cases e : srt p.1 p.2 = q
      · subst e
        exact ⟨fun _ => hz', fun _ => ⟨hz'.1, hz'.2.1, by omega⟩⟩
      · rw [hold q e]
    refine ⟨_, rfl, h.net.congr e1, h.used.congr e1, heti, nodup_sadd h.nodup _, fun q => ?_, h.tnodup,
      fun q => (h.taken q).trans ?_, hselfs hd, h.keys⟩
    · rw [mem_sadd, h.multi]
      by_cases e : srt p.1 p.2 = q
      · subst e
        rw [hnew]
        exact ⟨fun _ => ⟨hz'.1, hz'.2.1, by omega⟩, fun _ => .inr rfl⟩
      · rw [hold q e]
        exact ⟨fun a => a.resolve_right (Ne.symm e), .inl⟩
    · by_cases e : srt p.1 p.2 = q
      · subst e
        exact ⟨fun a => absurd a.2.1 hz'.2.1, fun a => absurd a.2.1 hz'.2.1⟩
      · rw [hold q e]
  rw [if_neg (by simpa using hz)]
  have hz' := hw0.1 hz
  by_cases hU : U0 (srt p.1 p.2)
  · -- a taken link
    rw [if_pos ((h.used.2 _).2 (.inl hU))]
    have e1 : ∀ q : α × α, (q.1 ≠ q.2 ∧ ¬ U0 q ∧ 0 < cnt q (pre ++ [p])) ↔ (q.1 ≠ q.2 ∧ ¬ U0 q ∧ 0 < cnt q pre) := by
      intro q
      by_cases e : srt p.1 p.2 = q
      · subst e
        exact ⟨fun a => absurd hU a.2.1, fun a => absurd hU a.2.1⟩
      · rw [hold q e]
    refine ⟨_, rfl, h.net.congr e1, h.used.congr e1, heti, h.nodup, fun q => (h.multi q).trans ?_,
      nodup_sadd h.tnodup _, fun q => ?_, hselfs hd, h.keys⟩
    · by_cases e : srt p.1 p.2 = q
      · subst e
        exact ⟨fun a => absurd hU a.2.1, fun a => absurd hU a.2.1⟩
      · rw [hold q e]
    · rw [mem_sadd, h.taken]
      by_cases e : srt p.1 p.2 = q
      · subst e
        rw [hnew]
        exact ⟨fun _ => ⟨hd, hU, by omega⟩, fun _ => .inr rfl⟩
      · rw [hold q e]
        exact ⟨fun a => a.resolve_right (Ne.symm e), .inl⟩
  · -- a new link
    have hnu : srt p.1 p.2 ∉ f.used := by
      rw [h.used.2]
      rintro (a | a)
      · exact hU a
      · exact hz' a
    rw [if_neg hnu]
    obtain ⟨net', e1, h1⟩ := h.net.set1 F hd (.inl hs.1) (.inl hs.2)
    simp only [e1]
    have hc0 : cnt (srt p.1 p.2) pre = 0 := by
      by_contra hc
      exact hz' ⟨hd, hU, by omega⟩
    have e2 : ∀ q : α × α, (q.1 ≠ q.2 ∧ ¬ U0 q ∧ 0 < cnt q (pre ++ [p])) ↔
        ((q.1 ≠ q.2 ∧ ¬ U0 q ∧ 0 < cnt q pre) ∨ q = srt p.1 p.2) := by
      intro q
      by_cases e : srt p.1 p.2 = q
      · subst e
        exact ⟨fun _ => .inr rfl, fun _ => ⟨hd, hU, by omega⟩⟩
      · rw [hold q e]
        exact ⟨.inl, fun a => a.resolve_right (Ne.symm e)⟩
    refine ⟨_, rfl, h1.congr fun q => ?_, ?_, heti, h.nodup, fun q => (h.multi q).trans ?_, h.tnodup,
      fun q => (h.taken q).trans ?_, hselfs hd, h.keys⟩
    · rw [srt_idem]; exact e2 q
    · exact ⟨nodup_sadd h.used.1 _, fun q => by
        dsimp only
        rw [mem_sadd, h.used.2, e2, or_assoc]⟩
    · by_cases e : srt p.1 p.2 = q
      · subst e
        rw [hnew, hc0]
        exact ⟨fun a => absurd a.2.2 (by omega), fun a => absurd a.2.2 (by omega)⟩
      · rw [hold q e]
    · by_cases e : srt p.1 p.2 = q
      · subst e
        exact ⟨fun a => absurd a.2.1 hU, fun a => absurd a.2.1 hU⟩
      · rw [hold q e]

theorem ovLinks_ok [NeZero (1 : W)] (F : Fills T P) {s : σ}
    (h : NetOf P (fun a => a ∈ stubs ∨ a ∈ zeros) zeros s (fun _ => False)) {used : List (α × α)}
    (hu : used.Nodup) (hU : ∀ q, q ∈ used ↔ U0 q)
    {pairs : List (α × α)} (hp : ∀ p ∈ pairs, p.1 ∈ stubs ∧ p.2 ∈ stubs) :
    ∃ f, forE (ovLink T) pairs.zipIdx ⟨s, used, [], [], [], []⟩ = .ok f ∧ OLInv P stubs zeros U0 pairs f := by
  have := forE_ok (f := ovLink T) (P := fun pre f => OLInv P stubs zeros U0 (pre.map Prod.fst) f) pairs.zipIdx
    (s := ⟨s, used, [], [], [], []⟩) ⟨h.congr (by simp [cnt, wsum]), ⟨hu, by simp [cnt, wsum, hU]⟩,
      fun k => ⟨by simp, by simp⟩, by simp, by simp [cnt, wsum], by simp, by simp [cnt, wsum], by simp,
      by simp [Dict.keys]⟩ (by
      rintro pre ⟨p, n⟩ post f hl hf
      have hget : pairs.zipIdx[pre.length]? = some (p, n) := by rw [hl]; simp
      rw [List.getElem?_zipIdx] at hget
      simp only [Nat.zero_add, Option.map_eq_some_iff, Prod.mk.injEq] at hget
      obtain ⟨p', hp', rfl, rfl⟩ := hget
      obtain ⟨f', e, h'⟩ := ovLink_ok F hf (hp p' (List.mem_of_getElem? hp'))
      rw [List.length_map] at e
      exact ⟨f', e, by simpa using h'⟩)
  simpa using this

/-! ### the repairs -/

theorem ovRepair_ends [NeZero (1 : W)] (F : Fills T P) {pairs : List (α × α)} {f : OFound σ α}
    (hf : OLInv P stubs zeros U0 pairs f) (hU0 : ∀ q, U0 q → q.1 ≠ q.2) (hdeg : ∀ a, wsum (endsAt a) pairs = stubs.count a) (rnd : ConfRandom α) :
    Ends (fun e => e = .valueError ∧ pairs.length = 1) (ovRepair T rnd pairs f) (fun w => ∃ lk,
      NetOf P (fun a => a ∈ stubs ∨ a ∈ zeros) zeros w.net lk ∧ Simple stubs w.pairs lk ∧ Used U0 lk w.used ∧
        ∀ q, lk q → ¬ U0 q) := by
  let pos0 : α × α → List Nat := fun k => (Dict.get f.eti k).getD []
  have hposne : ∀ k, 0 < cnt k pairs → pos0 k ≠ [] := by
    intro k hk hn
    have := (hf.eti k).cnt
    simp only [pos0] at hn
    rw [hn] at this
    simp at this; omega
  have hkey : ∀ k, 0 < cnt k pairs → key k = k := by
    intro k hk
    obtain ⟨p, -, rfl⟩ := cnt_pos.1 hk
    exact key_key p
  have hget : ∀ k, 0 < cnt k pairs → Dict.get f.eti k = some (pos0 k) := by
    intro k hk
    have := hposne k hk
    simp only [pos0] at this ⊢
    cases hg : Dict.get f.eti k with
    | none => rw [hg] at this; exact absurd rfl this
    | some l => rfl
  have hmc : ∀ k ∈ f.multi, 0 < cnt k pairs := fun k hk => by
    have := ((hf.multi k).1 hk).2.2; omega
  have htc : ∀ k ∈ f.taken, 0 < cnt k pairs := fun k hk => ((hf.taken k).1 hk).2.2
  have hw : OInv P stubs zeros U0 pairs.length f.multi f.taken pos0 ⟨f.net, f.used, pairs, f.eti, rnd.draws⟩ := by
    refine ⟨_, hf.net, ⟨⟨hdeg, fun q => Iff.rfl, fun q a b c => ?_⟩, fun k _ => hf.eti k, fun p hp hU => ?_,
      fun k hk => ⟨((hf.multi k).1 hk).1, ((hf.multi k).1 hk).2.1⟩,
      fun k hk => ⟨((hf.taken k).1 hk).1, ((hf.taken k).1 hk).2.1⟩⟩, rfl, hf.used⟩
    · by_contra h2
      exact c ((hf.multi q).2 ⟨a, b, by dsimp only at h2; omega⟩)
    · exact (hf.taken _).2 ⟨hU0 _ hU, hU, cnt_pos.2 ⟨p, hp, rfl⟩⟩
  have key1 := ovSelfs_ends F hw (fun k hk => ⟨((hf.multi k).1 hk).1, hposne k (hmc k hk)⟩) hf.keys
    (fun x => (hf.selfs x).symm)
  unfold ovRepair
  split
  · rename_i e he
    rw [he] at key1
    cases e with
    | raised e => exact key1
    | more => trivial
  rename_i w he
  rw [he] at key1
  split
  · trivial
  rename_i hord
  simp only [not_not] at hord
  obtain ⟨⟨lk, k1, k2, k3, k5⟩, k4⟩ := key1
  have key2 := forS_ends (B := fun e => e = .valueError ∧ pairs.length = 1) (f := ovMultis T f.multi f.taken)
    (P := fun pre w => OMInv P stubs zeros U0 pairs.length (rnd.multiOrder.drop pre.length) f.taken w) rnd.multiOrder
    (s := w)
    (by
      refine ⟨_, ⟨lk, k1, k2.permPend (fun m => ?_), k3, k5⟩, fun k hk => ?_, fun k hk => ?_, fun x => by simp⟩
      · simpa using hord.mem_iff
      · have hk2 : k ∈ f.multi := hord.mem_iff.1 (by simpa using hk)
        have hd := ((hf.multi k).1 hk2).1
        simp only [hd, if_false]
        exact ⟨hposne k (hmc k hk2), by rw [k4]; exact hget k (hmc k hk2)⟩
      · have hd := ((hf.taken k).1 hk).1
        simp only [hd, if_false]
        rw [k4]; exact hget k (htc k hk))
    (by
      intro pre m post w' hl hm
      have hd : rnd.multiOrder.drop pre.length = m :: post := by rw [hl]; simp
      have hd2 : rnd.multiOrder.drop (pre ++ [m]).length = post := by
        rw [hl, show pre ++ m :: post = (pre ++ [m]) ++ post by simp]
        exact List.drop_left
      have hmem : ∀ k ∈ m :: post, k ∈ f.multi := fun k hk => hord.mem_iff.1 (by rw [hl]; simp at hk ⊢; tauto)
      have hnd : (m :: post).Nodup := by
        have := hord.nodup_iff.2 hf.nodup
        rw [hl] at this
        exact (List.nodup_append.1 this).2.1
      rw [hd] at hm
      rw [hd2]
      exact ovMultis_ends F hm hmem (hkey m (hmc m (hmem m (by simp)))) (List.nodup_cons.1 hnd).1)
  split
  · rename_i e he2
    rw [he2] at key2
    cases e with
    | raised e => exact key2
    | more => trivial
  rename_i w2 he2
  rw [he2] at key2
  split
  · trivial
  rename_i hord2
  simp only [not_not] at hord2
  simp only [List.drop_length] at key2
  obtain ⟨pos, ⟨lk2, l1, l2, l3, l5⟩, -, l6, l4⟩ := key2
  have key3 := forS_ends (B := fun e => e = .valueError ∧ pairs.length = 1) (f := ovTakens T f.taken)
    (P := fun pre w => OMInv P stubs zeros U0 pairs.length [] (rnd.takenOrder.drop pre.length) w) rnd.takenOrder
    (s := w2)
    (by
      refine ⟨pos, ⟨lk2, l1, l2.permTk (fun m => ?_), l3, l5⟩, by simp, fun k hk => ?_, l4⟩
      · simpa using hord2.mem_iff
      · exact l6 k (hord2.mem_iff.1 (by simpa using hk)))
    (by
      intro pre m post w' hl hm
      have hd : rnd.takenOrder.drop pre.length = m :: post := by rw [hl]; simp
      have hd2 : rnd.takenOrder.drop (pre ++ [m]).length = post := by
        rw [hl, show pre ++ m :: post = (pre ++ [m]) ++ post by simp]
        exact List.drop_left
      have hmem : ∀ k ∈ m :: post, k ∈ f.taken := fun k hk => hord2.mem_iff.1 (by rw [hl]; simp at hk ⊢; tauto)
      have hnd : (m :: post).Nodup := by
        have := hord2.nodup_iff.2 hf.tnodup
        rw [hl] at this
        exact (List.nodup_append.1 this).2.1
      rw [hd] at hm
      rw [hd2]
      exact ovTakens_ends F hm hmem (hkey m (htc m (hmem m (by simp)))) (List.nodup_cons.1 hnd).1)
  refine key3.mono ?_
  intro w3 h3
  simp only [List.drop_length] at h3
  obtain ⟨pos, ⟨lk3, m1, m2, m3, m5⟩, -, -, m4⟩ := h3
  exact ⟨lk3, m1, m2.simpleU m4, m5, fun q hq => m2.notUsed hq⟩

theorem ovStubs_ends [NeZero (1 : W)] (F : Fills T P) {s : σ} {nstubs nodes : Nat}
    (h : NetOf P (fun a => a ∈ stubs ∨ a ∈ zeros) zeros s (fun _ => False)) (hlen : stubs.length = nstubs)
    {used : List (α × α)} (hu : used.Nodup) (hU : ∀ q, q ∈ used ↔ U0 q) (hU0 : ∀ q, U0 q → q.1 ≠ q.2)
    (rnd : ConfRandom α) :
    Ends (fun e => (e = .assertionError ∧ (nstubs % 2 ≠ 0 ∨ nodes * (nodes - 1) < nstubs)) ∨
        (e = .valueError ∧ nstubs = 2))
      (ovStubs T nstubs nodes stubs rnd used s) (fun r => nstubs % 2 = 0 ∧ nstubs ≤ nodes * (nodes - 1) ∧ ∃ lk pairs,
        NetOf P (fun a => a ∈ stubs ∨ a ∈ zeros) zeros r.1 lk ∧ Simple stubs pairs lk ∧ Used U0 lk r.2 ∧
        ∀ q, lk q → ¬ U0 q) := by
  unfold ovStubs
  split
  · rename_i h1; exact .inl ⟨rfl, .inl h1⟩
  rename_i heven
  split
  · rename_i h1; exact .inl ⟨rfl, .inr (by omega)⟩
  rename_i hroom
  split
  · trivial
  rename_i hperm
  simp only [not_not] at hperm
  have hsl : rnd.shuffle.length = nstubs := by rw [hperm.length_eq, hlen]
  have hpl : (toPairs rnd.shuffle).length = nstubs / 2 := by rw [length_toPairs, hsl]
  obtain ⟨f, e1, hf⟩ := ovLinks_ok F h hu hU (pairs := toPairs rnd.shuffle) (fun p hp => by
    have := mem_toPairs _ p hp
    exact ⟨hperm.mem_iff.1 this.1, hperm.mem_iff.1 this.2⟩)
  simp only [e1]
  have key1 := ovRepair_ends F hf hU0 (fun a => by rw [toPairs_ends _ (by omega), hperm.count_eq]) rnd
  rw [hpl] at key1
  split
  · rename_i e he
    rw [he] at key1
    cases e with
    | raised e => exact .inr ⟨key1.1, by have := key1.2; omega⟩
    | more => trivial
  · rename_i w he
    rw [he] at key1
    obtain ⟨lk, a, b, c, d⟩ := key1
    exact ⟨by omega, by omega, lk, w.pairs, a, b, c, d⟩

end

end Pymnet
