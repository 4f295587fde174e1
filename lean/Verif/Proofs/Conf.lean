import Verif.Proofs.ConfLoop

/-! `single_layer_conf`: what holds when it returns, and when it raises. -/

set_option linter.unusedSectionVars false

namespace Pymnet

open Py Models

variable {α W σ τ : Type} [DecidableEq α] [DecidableEq W] [LinearOrder α] [Zero W] [One W]

theorem cnt_append (q : α × α) (l : List (α × α)) (p : α × α) :
    cnt q (l ++ [p]) = cnt q l + if key p = q then 1 else 0 := by simp [cnt, wsum]

theorem Tracks.append {pre : List (α × α)} {k : α × α} {is : List Nat} (h : Tracks pre k is) (p : α × α) :
    Tracks (pre ++ [p]) k (if key p = k then is ++ [pre.length] else is) := by
  obtain ⟨h1, h2⟩ := h
  have hlt : ∀ s ∈ is, s < pre.length := fun s hs => by
    obtain ⟨p, hp, -⟩ := (h2 s).1 hs
    exact (List.getElem?_eq_some_iff.1 hp).1
  constructor
  · split
    · rw [List.nodup_append]
      refine ⟨h1, by simp, ?_⟩
      intro a ha b hb
      simp only [List.mem_singleton] at hb
      have := hlt a ha
      omega
    · exact h1
  · intro s
    rcases lt_trichotomy s pre.length with hs | hs | hs
    · rw [List.getElem?_append_left hs, ← h2]
      split
      · simp; omega
      · rfl
    · subst hs
      have : pre.length ∉ is := fun e => absurd (hlt _ e) (lt_irrefl _)
      split <;> simp [this, *]
    · have h3 : s ∉ is := fun e => absurd (hlt _ e) (by omega)
      have h4 : (pre ++ [p])[s]? = none := List.getElem?_eq_none (by simp; omega)
      rw [h4]
      split
      · simp only [List.mem_append, h3, List.mem_singleton, false_or]
        simp; omega
      · simp [h3]

theorem get_appendAt {κ : Type} [DecidableEq κ] (d : Dict κ (List Nat)) (k k' : κ) (s : Nat) :
    (Dict.get (appendAt d k s) k').getD [] = if k = k' then (Dict.get d k').getD [] ++ [s] else (Dict.get d k').getD [] := by
  unfold appendAt
  rw [Dict.get_set]
  by_cases h : k = k'
  · subst h; simp
  · rw [if_neg h]
    have h' : ¬ k' = k := fun e => h e.symm
    simp [h, h']

section
variable {T : Target σ α W} {P : σ → (α → Prop) → (α → α → W) → Prop} {stubs zeros : List α}

/-- the state of the loop that links the stubs, after the pairs `pre` -/
structure LInv (P : σ → (α → Prop) → (α → α → W) → Prop) (stubs zeros : List α) (pre : List (α × α))
    (f : Found σ α) : Prop where
  net : NetOf P (fun a => a ∈ stubs ∨ a ∈ zeros) zeros f.net (fun q => q.1 ≠ q.2 ∧ 0 < cnt q pre)
  eti : ∀ k, Tracks pre k ((Dict.get f.eti k).getD [])
  nodup : f.multi.Nodup
  multi : ∀ q, q ∈ f.multi ↔ q.1 ≠ q.2 ∧ 2 ≤ cnt q pre
  selfs : ∀ x, (Dict.get f.selfs x).getD [] = (Dict.get f.eti (x, x)).getD []
  keys : (Dict.keys f.selfs).Nodup

theorem key_pair_stubs {p : α × α} (h : p.1 ∈ stubs ∧ p.2 ∈ stubs) : (srt p.1 p.2).1 ∈ stubs ∧ (srt p.1 p.2).2 ∈ stubs := by
  rcases srt_cases p.1 p.2 with e | e <;> rw [e]
  · exact h
  · exact h.symm

theorem confLink_ok [NeZero (1 : W)] (F : Fills T P) {pre : List (α × α)} {f : Found σ α} (h : LInv P stubs zeros pre f)
    {p : α × α} (hp : p.1 ∈ stubs ∧ p.2 ∈ stubs) :
    ∃ f', confLink T f (p, pre.length) = .ok f' ∧ LInv P stubs zeros (pre ++ [p]) f' := by
  have hs := key_pair_stubs hp
  obtain ⟨w, hw, hw0, -⟩ := h.net.get F (srt p.1 p.2).1 (srt p.1 p.2).2
  rw [srt_idem] at hw0
  have heti : ∀ k, Tracks (pre ++ [p]) k ((Dict.get (appendAt f.eti (srt p.1 p.2) pre.length) k).getD []) := by
    intro k
    rw [get_appendAt]
    exact (h.eti k).append p
  have hmul : (if w ≠ 0 then sadd f.multi (srt p.1 p.2) else f.multi).Nodup ∧
      ∀ q, q ∈ (if w ≠ 0 then sadd f.multi (srt p.1 p.2) else f.multi) ↔ q.1 ≠ q.2 ∧ 2 ≤ cnt q (pre ++ [p]) := by
    refine ⟨by split; exacts [nodup_sadd h.nodup _, h.nodup], fun q => ?_⟩
    rw [cnt_append]
    by_cases hz : w = 0
    · rw [if_neg (by simp [hz]), h.multi]
      have hz' := hw0.1 hz
      by_cases e : key p = q
      · subst e
        rw [if_pos rfl]
        constructor
        · rintro ⟨a, b⟩; exact ⟨a, by omega⟩
        · rintro ⟨a, b⟩
          exact absurd ⟨a, by show 0 < cnt (key p) pre; omega⟩ hz'
      · rw [if_neg e, Nat.add_zero]
    · rw [if_pos hz, mem_sadd, h.multi]
      have hz' : (srt p.1 p.2).1 ≠ (srt p.1 p.2).2 ∧ 0 < cnt (srt p.1 p.2) pre := by
        by_contra hc; exact hz (hw0.2 hc)
      by_cases e : key p = q
      · subst e
        rw [if_pos rfl]
        constructor
        · intro _; exact ⟨hz'.1, by have := hz'.2; show 2 ≤ cnt (srt p.1 p.2) pre + 1; omega⟩
        · intro _; exact .inr rfl
      · rw [if_neg e, Nat.add_zero]
        constructor
        · rintro (a | a)
          · exact a
          · exact absurd a.symm e
        · exact .inl
  unfold confLink
  simp only [hw]
  by_cases hd : (srt p.1 p.2).1 = (srt p.1 p.2).2
  · rw [if_pos hd]
    refine ⟨_, rfl, h.net.congr fun q => ?_, heti, hmul.1, hmul.2, fun x => ?_, Dict.nodup_keys_set h.keys _ _⟩
    · rw [cnt_append]
      by_cases e : key p = q
      · subst e
        simp only [key, hd, ne_eq, not_true, false_and]
      · rw [if_neg e, Nat.add_zero]
    · rw [get_appendAt, get_appendAt, h.selfs x]
      have e : srt p.1 p.2 = (x, x) ↔ (srt p.1 p.2).1 = x :=
        ⟨fun e => by rw [e], fun e => Prod.ext e (hd ▸ e)⟩
      by_cases e2 : (srt p.1 p.2).1 = x
      · rw [if_pos e2, if_pos (e.2 e2)]
      · rw [if_neg e2, if_neg (fun e3 => e2 (e.1 e3))]
  · rw [if_neg hd]
    obtain ⟨net', e1, h1⟩ := h.net.set1 F hd (.inl hs.1) (.inl hs.2)
    simp only [e1]
    refine ⟨_, rfl, h1.congr fun q => ?_, heti, hmul.1, hmul.2, fun x => ?_, h.keys⟩
    · rw [cnt_append, srt_idem]
      by_cases e : key p = q
      · subst e
        simp only [key, if_true, or_true, iff_true]
        exact ⟨hd, by omega⟩
      · rw [if_neg e, Nat.add_zero]
        constructor
        · exact .inl
        · rintro (a | a)
          · exact a
          · exact absurd a.symm e
    · rw [get_appendAt, h.selfs x, if_neg]
      intro e; rw [e] at hd; exact hd rfl

theorem confLinks_ok [NeZero (1 : W)] (F : Fills T P) {s : σ}
    (h : NetOf P (fun a => a ∈ stubs ∨ a ∈ zeros) zeros s (fun _ => False))
    {pairs : List (α × α)} (hp : ∀ p ∈ pairs, p.1 ∈ stubs ∧ p.2 ∈ stubs) :
    ∃ f, forE (confLink T) pairs.zipIdx ⟨s, [], [], []⟩ = .ok f ∧ LInv P stubs zeros pairs f := by
  have := forE_ok (f := confLink T) (P := fun pre f => LInv P stubs zeros (pre.map Prod.fst) f) pairs.zipIdx
    (s := ⟨s, [], [], []⟩) ⟨h.congr (by simp [cnt, wsum]), fun k => ⟨by simp, by simp⟩, by simp, by simp [cnt, wsum], by simp,
      by simp [Dict.keys]⟩ (by
      rintro pre ⟨p, n⟩ post f hl hf
      have hget : pairs.zipIdx[pre.length]? = some (p, n) := by rw [hl]; simp
      rw [List.getElem?_zipIdx] at hget
      simp only [Nat.zero_add, Option.map_eq_some_iff, Prod.mk.injEq] at hget
      obtain ⟨p', hp', rfl, rfl⟩ := hget
      obtain ⟨f', e, h'⟩ := confLink_ok F hf (hp p' (List.mem_of_getElem? hp'))
      rw [List.length_map] at e
      exact ⟨f', e, by simpa using h'⟩)
  simpa using this

/-! ### the whole call -/

theorem toPairs_ends : ∀ (l : List α), l.length % 2 = 0 → ∀ a, wsum (endsAt a) (toPairs l) = l.count a
  | [], _, a => rfl
  | [x], h, a => by simp at h
  | x :: y :: t, h, a => by
    have := toPairs_ends t (by simp at h; omega) a
    simp only [toPairs, wsum, List.map_cons, List.sum_cons] at *
    rw [this, List.count_cons, List.count_cons]
    simp only [endsAt, beq_iff_eq]
    omega

theorem length_toPairs : ∀ (l : List α), (toPairs l).length = l.length / 2
  | [] => by simp [toPairs]
  | [x] => by simp [toPairs]
  | x :: y :: t => by
    have := length_toPairs t
    simp only [toPairs, List.length_cons, this]; omega

theorem mem_toPairs : ∀ (l : List α), ∀ p ∈ toPairs l, p.1 ∈ l ∧ p.2 ∈ l
  | [], p, h => by simp [toPairs] at h
  | [x], p, h => by simp [toPairs] at h
  | x :: y :: t, p, h => by
    rcases List.mem_cons.1 h with rfl | h
    · simp
    · have := mem_toPairs t p h
      simp [this.1, this.2]

theorem Rep.permPend {U0 : α × α → Prop} {pend pend' tk : List (α × α)} {pos : α × α → List Nat}
    {pairs : List (α × α)} {lk : α × α → Prop} (h : Rep stubs U0 pend tk pos pairs lk) (hp : ∀ m, m ∈ pend' ↔ m ∈ pend) :
    Rep stubs U0 pend' tk pos pairs lk :=
  ⟨⟨h.slots.deg, h.slots.lk, fun q a b c => h.slots.one q a b (fun e => c ((hp q).2 e))⟩,
    fun k hk => h.pos k (by simpa [Tracked, hp] using hk), h.bad, fun k hk => h.pendOk k ((hp k).1 hk), h.tkOk⟩

/-- What the network is like at the end: the pairs of stubs are all different links. -/
structure Simple (stubs : List α) (pairs : List (α × α)) (lk : α × α → Prop) : Prop where
  deg : ∀ a, wsum (endsAt a) pairs = stubs.count a
  lk : ∀ q, lk q ↔ 0 < cnt q pairs
  one : ∀ q, cnt q pairs ≤ 1
  diag : ∀ p ∈ pairs, p.1 ≠ p.2

theorem Rep.simple {pos : α × α → List Nat} {pairs : List (α × α)} {lk : α × α → Prop}
    (h : Rep stubs (fun _ => False) [] [] pos pairs lk) (hd : ∀ x, pos (x, x) = []) : Simple stubs pairs lk := by
  have hdiag : ∀ q : α × α, q.1 = q.2 → cnt q pairs = 0 := by
    intro q hq
    rw [(h.pos q (.inl hq)).cnt]
    have : q = (q.1, q.1) := Prod.ext rfl hq.symm
    rw [this, hd]; rfl
  refine ⟨h.slots.deg, fun q => ?_, fun q => ?_, fun p hp e => ?_⟩
  · rw [h.slots.lk]
    constructor
    · exact fun x => x.2.2
    · intro x
      exact ⟨fun e => by rw [hdiag q e] at x; omega, id, x⟩
  · by_cases e : q.1 = q.2
    · rw [hdiag q e]; omega
    · exact h.slots.one q e id (by simp)
  · have h1 := hdiag (key p) (srt_diag.2 e)
    have : 0 < cnt (key p) pairs := cnt_pos.2 ⟨p, hp, rfl⟩
    omega

theorem confStubs_ends [NeZero (1 : W)] (F : Fills T P) {s : σ} {nstubs nodes : Nat}
    (h : NetOf P (fun a => a ∈ stubs ∨ a ∈ zeros) zeros s (fun _ => False)) (hlen : stubs.length = nstubs)
    (rnd : ConfRandom α) :
    Ends (fun e => (e = .assertionError ∧ (nstubs % 2 ≠ 0 ∨ nodes * (nodes - 1) < nstubs)) ∨
        (e = .valueError ∧ nstubs = 2))
      (confStubs T nstubs nodes stubs rnd s) (fun net => ∃ lk pairs,
        NetOf P (fun a => a ∈ stubs ∨ a ∈ zeros) zeros net lk ∧ Simple stubs pairs lk) := by
  unfold confStubs
  split
  · rename_i h1; exact .inl ⟨rfl, .inl h1⟩
  rename_i heven
  split
  · rename_i h1; exact .inl ⟨rfl, .inr (by omega)⟩
  split
  · trivial
  rename_i hperm
  simp only [not_not] at hperm
  have hsl : rnd.shuffle.length = nstubs := by rw [hperm.length_eq, hlen]
  have hpl : (toPairs rnd.shuffle).length = nstubs / 2 := by rw [length_toPairs, hsl]
  obtain ⟨f, e1, hf⟩ := confLinks_ok F h (pairs := toPairs rnd.shuffle) (fun p hp => by
    have := mem_toPairs _ p hp
    exact ⟨hperm.mem_iff.1 this.1, hperm.mem_iff.1 this.2⟩)
  simp only [e1]
  let pos0 : α × α → List Nat := fun k => (Dict.get f.eti k).getD []
  have hposne : ∀ k ∈ f.multi, pos0 k ≠ [] := by
    intro k hk hn
    have := (hf.eti k).cnt
    have h2 := ((hf.multi k).1 hk).2
    simp only [pos0] at hn
    rw [hn] at this
    simp at this; omega
  have hkey : ∀ k ∈ f.multi, key k = k := by
    intro k hk
    have h2 := ((hf.multi k).1 hk).2
    obtain ⟨p, -, rfl⟩ := cnt_pos.1 (lt_of_lt_of_le Nat.zero_lt_two h2)
    exact key_key p
  have hget : ∀ k ∈ f.multi, Dict.get f.eti k = some (pos0 k) := by
    intro k hk
    have := hposne k hk
    simp only [pos0] at this ⊢
    cases hg : Dict.get f.eti k with
    | none => rw [hg] at this; exact absurd rfl this
    | some l => rfl
  have hw : WInv P stubs zeros (nstubs / 2) f.multi [] pos0 f.net (toPairs rnd.shuffle) := by
    refine ⟨_, hf.net, ⟨⟨fun a => ?_, fun q => ?_, fun q a _ c => ?_⟩, fun k _ => hf.eti k, fun p _ hU => hU.elim,
      fun k hk => ⟨((hf.multi k).1 hk).1, id⟩, by simp⟩, hpl⟩
    · rw [toPairs_ends _ (by omega), hperm.count_eq]
    · simp
    · by_contra h2
      exact c ((hf.multi q).2 ⟨a, by omega⟩)
  have key1 := confSelfs_ends F (w := ⟨f.net, toPairs rnd.shuffle, f.eti, rnd.draws⟩) hw
    (fun k hk => ⟨((hf.multi k).1 hk).1, hposne k hk⟩) hf.keys (fun x => (hf.selfs x).symm)
  have hB : ∀ e : Err, (e = .valueError ∧ nstubs / 2 = 1) → (e = .assertionError ∧ (nstubs % 2 ≠ 0 ∨
      nodes * (nodes - 1) < nstubs)) ∨ (e = .valueError ∧ nstubs = 2) := fun e he => .inr ⟨he.1, by omega⟩
  split
  · rename_i e he
    rw [he] at key1
    cases e with
    | raised e => exact hB e key1
    | more => trivial
  rename_i w he
  rw [he] at key1
  split
  · trivial
  rename_i hord
  simp only [not_not] at hord
  obtain ⟨⟨lk, k1, k2, k3⟩, k4⟩ := key1
  have key2 := forS_ends (B := fun e => e = .valueError ∧ nstubs / 2 = 1) (f := confMultis T f.multi)
    (P := fun pre w => MInv P stubs zeros (nstubs / 2) (rnd.multiOrder.drop pre.length) w) rnd.multiOrder (s := w)
    (by
      refine ⟨_, ⟨lk, k1, k2.permPend (fun m => ?_), k3⟩, fun k hk => ?_, fun x => by simp⟩
      · simpa using hord.mem_iff
      · have hk2 : k ∈ f.multi := hord.mem_iff.1 (by simpa using hk)
        have hd := ((hf.multi k).1 hk2).1
        simp only [hd, if_false]
        exact ⟨hposne k hk2, by rw [k4]; exact hget k hk2⟩)
    (by
      intro pre m post w' hl hm
      have hd : rnd.multiOrder.drop pre.length = m :: post := by rw [hl]; simp
      have hd2 : rnd.multiOrder.drop (pre ++ [m]).length = post := by
        rw [hl, show pre ++ m :: post = (pre ++ [m]) ++ post by simp]
        exact List.drop_left
      have hmem : ∀ k ∈ m :: post, k ∈ f.multi := fun k hk => hord.mem_iff.1 (by rw [hl]; simp at hk ⊢; tauto)
      have hnd : (m :: post).Nodup := by
        have := hord.nodup_iff.2 hf.nodup
        rw [hl] at this
        exact (List.nodup_append.1 this).2.1
      rw [hd] at hm
      rw [hd2]
      exact confMultis_ends F hm hmem (hkey m (hmem m (by simp))) (List.nodup_cons.1 hnd).1)
  split
  · rename_i e he2
    rw [he2] at key2
    cases e with
    | raised e => exact hB e key2
    | more => trivial
  · rename_i w2 he2
    rw [he2] at key2
    simp only [List.drop_length] at key2
    obtain ⟨pos, ⟨lk2, l1, l2, l3⟩, -, l4⟩ := key2
    exact ⟨lk2, w2.pairs, l1, l2.simple l4⟩

end

end Pymnet
