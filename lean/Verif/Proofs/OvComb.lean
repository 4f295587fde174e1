import Verif.Proofs.OvStubs

/-! The loop of `conf_overlaps` over the layer combinations. -/

set_option linter.unusedSectionVars false

namespace Pymnet

open Py Models

variable {α W σ τ : Type} [DecidableEq α] [DecidableEq W] [LinearOrder α] [Zero W] [One W]

omit [LinearOrder α] [One W] in
/-- the edges of a network without aspects -/
theorem BuiltM.edges {m : MNet α W} {S : α → Prop} {R : α → α → W} (h : BuiltM m S R) :
    ∃ E : List (α × α), m.view.edges = .ok (E.map fun p => ([p.1, p.2], R p.1 p.2)) ∧ (∀ p ∈ E, R p.1 p.2 ≠ 0) ∧
      ∀ a b, R a b ≠ 0 → (a, b) ∈ E ∨ (b, a) ∈ E := by
  have hl := Built.looks h (fun _ => rfl) (fun h => (nomatch h))
  obtain ⟨ps, e1, -, e2, -, e3⟩ := hl.sound.edges
  have hz : m.view.noEdge = 0 := hl.noEdge_eq
  have hsl : ∀ a, a ∈ product m.view.slices → a.length = 1 := fun a ha => by
    rw [hl.sound.length_of_mem ha]; exact congrArg (· + 1) hl.aspects_eq
  have conv : ∀ l : List (List α × List α), (∀ p ∈ l, p.1.length = 1 ∧ p.2.length = 1) →
      ∃ E : List (α × α), l = E.map fun q => ([q.1], [q.2]) := by
    intro l
    induction l with
    | nil => exact fun _ => ⟨[], rfl⟩
    | cons p t ih =>
      intro hp
      obtain ⟨E, rfl⟩ := ih fun q hq => hp q (by simp [hq])
      obtain ⟨u, v⟩ := p
      have := hp (u, v) (by simp)
      match u, v, this with
      | [a], [b], _ => exact ⟨(a, b) :: E, rfl⟩
  obtain ⟨E, rfl⟩ := conv ps fun p hp => ⟨hsl _ (e2 p hp).1, hsl _ (e2 p hp).2.1⟩
  have hr : ∀ a b : α, m.reads [a] [b] = R a b := fun a b => hl.reads_eq rfl rfl
  refine ⟨E, ?_, fun p hp => ?_, fun a b hab => ?_⟩
  · rw [e1, List.map_map]
    congr 1
    refine List.map_congr_left fun p _ => ?_
    simp [View.tuple, interleave, hr]
  · have := (e2 _ (List.mem_map_of_mem hp)).2.2
    rw [hr, hz] at this
    exact this
  · have hlk := hl.linked (u := [a]) (v := [b]) rfl rfl hab
    have := (e3 hl.directed_eq).1 [a] hlk.1.1 [b] hlk.2.1 (by rw [hr, hz]; exact hab)
    simp only [List.mem_map, Prod.mk.injEq, List.cons.injEq, and_true, Prod.exists] at this
    rcases this with ⟨x, y, h, rfl, rfl⟩ | ⟨x, y, h, rfl, rfl⟩
    · exact .inl h
    · exact .inr h

open Classical in
/-- the network in which the links `R c` are on all layers of the combination `c`, for the combinations `cs` -/
def OvBuilt (coupling : Coupling α W) (cs : List (List α)) (R : List α → α → α → W) (p : MPlex α W) : Prop :=
  BuiltP p coupling true (fun x => ∃ c ∈ cs, c ≠ [] ∧ ∃ b, R c x b = 1) (fun s => ∃ c ∈ cs, s ∈ c ∧ ∃ a b, R c a b = 1)
    (fun _ _ => False) (fun s a b => if ∃ c ∈ cs, s ∈ c ∧ R c a b = 1 then 1 else 0)

open Classical in
/-- copying the edges to all layers of a combination -/
theorem BuiltP.copies {p : MPlex α W} {c : Coupling α W} {S LY : α → Prop} {NL : α → α → Prop} {R : α → α → α → W}
    (h : BuiltP p c true S LY NL R) (comb : List α) (E : List (α × α)) (hE : ∀ q ∈ E, q.1 ≠ q.2)
    (g : α × α → W) :
    ∃ p', forE (ovCopy comb) (E.map fun q => ([q.1, q.2], g q)) p = .ok p' ∧ BuiltP p' c true
      (fun x => S x ∨ (comb ≠ [] ∧ ∃ q ∈ E, x = q.1 ∨ x = q.2))
      (fun s => LY s ∨ (s ∈ comb ∧ E ≠ [])) (fun _ _ => False)
      (fun s a b => if s ∈ comb ∧ ∃ q ∈ E, (a = q.1 ∧ b = q.2) ∨ (a = q.2 ∧ b = q.1) then 1 else R s a b) := by
  have := forE_ok (f := ovCopy comb) (P := fun pre p' => BuiltP p' c true
      (fun x => S x ∨ (comb ≠ [] ∧ ∃ q ∈ pre, ∃ a b, q.1 = [a, b] ∧ (x = a ∨ x = b)))
      (fun s => LY s ∨ (s ∈ comb ∧ pre ≠ [])) (fun _ _ => False)
      (fun s a b => if s ∈ comb ∧ ∃ q ∈ pre, q.1 = [a, b] ∨ q.1 = [b, a] then 1 else R s a b))
    (E.map fun q => ([q.1, q.2], g q)) (s := p)
    (BuiltP.congr h.anyNL (by simp) (by simp) (fun _ _ => Iff.rfl) (by simp)) (by
      rintro pre ⟨e, w⟩ post p1 hl h1
      obtain ⟨q, hq, hqe⟩ := List.mem_map.1 (show (e, w) ∈ E.map fun q => ([q.1, q.2], g q) by rw [hl]; simp)
      simp only [Prod.mk.injEq] at hqe
      obtain ⟨rfl, rfl⟩ := hqe
      obtain ⟨p', f1, f2⟩ := BuiltP.writes h1 comb (fun _ => True) (fun _ => q.1) (fun _ => q.2) (fun l => l)
        (fun j hj _ => hE q hq) (g := fun net l => (net.setItem [q.1, q.2, l] 1).toExcept)
        (fun m j _ _ => ⟨_, addresses_one, rfl⟩) (fun m j _ hq => absurd trivial hq)
      refine ⟨p', f1, BuiltP.congr f2.anyNL ?_ ?_ (fun _ _ => Iff.rfl) ?_⟩
      · intro x
        constructor
        · rintro ((a | ⟨a, q', hq', b⟩) | ⟨y, hy, -, b⟩)
          · exact .inl a
          · exact .inr ⟨a, q', by simp [hq'], b⟩
          · exact .inr ⟨List.ne_nil_of_mem hy, ([q.1, q.2], g q), by simp, _, _, rfl, b⟩
        · rintro (a | ⟨a, q', hq', b⟩)
          · exact .inl (.inl a)
          · rcases List.mem_append.1 hq' with hq' | hq'
            · exact .inl (.inr ⟨a, q', hq', b⟩)
            · rw [List.mem_singleton] at hq'
              subst hq'
              obtain ⟨u, v, huv, b⟩ := b
              simp only [List.cons.injEq, and_true] at huv
              obtain ⟨y, hy⟩ := List.exists_mem_of_ne_nil _ a
              exact .inr ⟨y, hy, trivial, by rw [huv.1, huv.2]; exact b⟩
      · intro s
        constructor
        · rintro ((a | a) | ⟨y, hy, -, rfl⟩)
          · exact .inl a
          · exact .inr ⟨a.1, by simp⟩
          · exact .inr ⟨hy, by simp⟩
        · rintro (a | a)
          · exact .inl (.inl a)
          · exact .inr ⟨s, a.1, trivial, rfl⟩
      · intro s a b
        refine ite_or_iff (Or.comm.trans ?_)
        simp only [List.mem_append, List.mem_singleton, or_and_right, exists_or, exists_eq_left, true_and,
          List.cons.injEq, and_true]
        constructor
        · rintro (⟨y, hy, rfl, h⟩ | h)
          · refine ⟨hy, .inr ?_⟩
            rcases h with ⟨rfl, rfl⟩ | ⟨rfl, rfl⟩ <;> simp
          · exact ⟨h.1, .inl h.2⟩
        · rintro ⟨h1, h2 | h2⟩
          · exact .inr ⟨h1, h2⟩
          · refine .inl ⟨s, h1, rfl, ?_⟩
            rcases h2 with h | h
            · exact .inl ⟨h.1.symm, h.2.symm⟩
            · exact .inr ⟨h.2.symm, h.1.symm⟩)
  obtain ⟨p', f1, f2⟩ := this
  refine ⟨p', f1, BuiltP.congr f2 ?_ ?_ (fun _ _ => Iff.rfl) ?_⟩
  · intro x
    refine or_congr_right (and_congr_right fun _ => ?_)
    simp only [List.mem_map, exists_exists_and_eq_and, List.cons.injEq, and_true]
    constructor
    · rintro ⟨q, hq, a, b, ⟨rfl, rfl⟩, h⟩; exact ⟨q, hq, h⟩
    · rintro ⟨q, hq, h⟩; exact ⟨q, hq, _, _, ⟨rfl, rfl⟩, h⟩
  · intro s; simp
  · intro s a b
    refine ite_iff (and_congr_right fun _ => ?_)
    simp only [List.mem_map, exists_exists_and_eq_and, List.cons.injEq, and_true]
    refine exists_congr fun q => and_congr_right fun _ => ?_
    constructor
    · rintro (⟨rfl, rfl⟩ | ⟨rfl, rfl⟩) <;> simp
    · rintro (⟨rfl, rfl⟩ | ⟨rfl, rfl⟩) <;> simp

/-- the state after the combinations `pre` -/
structure OvInvC (coupling : Coupling α W) (pre : List (List α × Dict α Nat)) (R : List α → α → α → W)
    (st : MPlex α W × List (α × α)) : Prop where
  net : OvBuilt coupling (pre.map Prod.fst) R st.1
  degs : ∀ c ∈ pre, Spec.HasDegrees (R c.1) fun x => (Dict.get c.2 x).getD 0
  even : ∀ c ∈ pre, (c.2.map Prod.snd).sum % 2 = 0 ∧ (c.2.map Prod.snd).sum ≤ List.length c.2 * (List.length c.2 - 1)
  disj : ∀ c ∈ pre, ∀ c' ∈ pre, c.1 ≠ c'.1 → ∀ a b, R c.1 a b = 1 → R c'.1 a b = 0
  nodup : st.2.Nodup
  used : ∀ q, q ∈ st.2 ↔ key q = q ∧ ∃ c ∈ pre, R c.1 q.1 q.2 = 1

/-- what a call with the degrees `d` may raise -/
def OvErr (d : Dict α Nat) (e : Err) : Prop :=
  (e = .assertionError ∧ ((d.map Prod.snd).sum % 2 ≠ 0 ∨ List.length d * (List.length d - 1) < (d.map Prod.snd).sum)) ∨
    (e = .valueError ∧ (d.map Prod.snd).sum = 2)

theorem Simple.hasDegrees [NeZero (1 : W)] {d : Dict α Nat} (hn : (d.map Prod.fst).Nodup) {pairs : List (α × α)}
    {lk : α × α → Prop} (hsim : Simple (stubsOf d) pairs lk) {R : α → α → W} (h2 : Rel R lk) :
    Spec.HasDegrees R (fun x => (Dict.get d x).getD 0) ∧ ∀ a b, R a b = 1 ↔ lk (srt a b) := by
  have hlk : ∀ a b, R a b = 1 ↔ lk (srt a b) := fun a b => by
    by_cases hl : lk (srt a b)
    · simp [h2.1 a b hl, hl]
    · simp only [h2.2 a b hl, hl, iff_false]; exact fun e => one_ne_zero e.symm
  refine ⟨⟨fun a b => ?_, fun a b => ?_, fun a => ?_, fun a => ?_⟩, hlk⟩
  · by_cases hl : lk (srt a b)
    · exact .inr (h2.1 a b hl)
    · exact .inl (h2.2 a b hl)
  · by_cases hl : lk (srt a b)
    · rw [h2.1 a b hl, h2.1 b a (by rw [srt_comm]; exact hl)]
    · rw [h2.2 a b hl, h2.2 b a (by rw [srt_comm]; exact hl)]
  · refine h2.2 a a fun hl => ?_
    rw [hsim.lk, cnt_pos] at hl
    obtain ⟨p, hp, hk⟩ := hl
    refine hsim.diag p hp ?_
    rcases key_ends.1 hk with ⟨e1, e2⟩ | ⟨e1, e2⟩ <;> rw [e1, e2]
  · obtain ⟨L, l1, l2, l3⟩ := hsim.neighbours a
    exact ⟨L, l1, fun b => (l2 b).trans (hlk a b).symm, l3.trans (count_stubsOf hn a)⟩

/-- one more combination, with links `R'` -/
theorem OvInvC.add [NeZero (1 : W)] {coupling : Coupling α W} {pre : List (List α × Dict α Nat)}
    {R : List α → α → α → W} {st : MPlex α W × List (α × α)} (h : OvInvC coupling pre R st)
    {c : List α × Dict α Nat} (hc : c.1 ∉ pre.map Prod.fst) {temp : MNet α W} {S : α → Prop} {R' : α → α → W}
    (ht : BuiltM temp S R') (hR : Spec.HasDegrees R' fun x => (Dict.get c.2 x).getD 0)
    (hev : (c.2.map Prod.snd).sum % 2 = 0 ∧ (c.2.map Prod.snd).sum ≤ List.length c.2 * (List.length c.2 - 1))
    (hdis : ∀ a b, R' a b = 1 → srt a b ∉ st.2) {used' : List (α × α)} (hn : used'.Nodup)
    (hu : ∀ q, q ∈ used' ↔ q ∈ st.2 ∨ (key q = q ∧ R' q.1 q.2 = 1)) :
    ∃ es net', temp.view.edges = .ok es ∧ forE (ovCopy c.1) es st.1 = .ok net' ∧
      OvInvC coupling (pre ++ [c]) (Function.update R c.1 R') (net', used') := by
  obtain ⟨E, e1, e2, e3⟩ := ht.edges
  have hR1 : ∀ a b, R' a b = 1 ↔ ∃ q ∈ E, (a = q.1 ∧ b = q.2) ∨ (a = q.2 ∧ b = q.1) := by
    intro a b
    constructor
    · intro hab
      rcases e3 a b (by rw [hab]; exact one_ne_zero) with h | h
      · exact ⟨_, h, .inl ⟨rfl, rfl⟩⟩
      · exact ⟨_, h, .inr ⟨rfl, rfl⟩⟩
    · rintro ⟨q, hq, ⟨rfl, rfl⟩ | ⟨rfl, rfl⟩⟩
      · exact (hR.weights _ _).resolve_left (e2 q hq)
      · rw [hR.symm]; exact (hR.weights _ _).resolve_left (e2 q hq)
  have hEd : ∀ q ∈ E, q.1 ≠ q.2 := by
    intro q hq e
    have := e2 q hq
    rw [e, hR.noSelf] at this
    exact this rfl
  obtain ⟨net', f1, f2⟩ := BuiltP.copies h.net c.1 E hEd (fun q => R' q.1 q.2)
  refine ⟨_, net', e1, f1, ?_⟩
  have hne : ∀ c' ∈ pre, c'.1 ≠ c.1 := fun c' hc' e => hc (e ▸ List.mem_map_of_mem hc')
  have hne' : ∀ c' ∈ pre.map Prod.fst, c' ≠ c.1 := fun c' hc' e => hc (e ▸ hc')
  have hup : ∀ c' ∈ pre, Function.update R c.1 R' c'.1 = R c'.1 := fun c' hc' => Function.update_of_ne (hne c' hc') ..
  have hup' : ∀ c' ∈ pre.map Prod.fst, Function.update R c.1 R' c' = R c' :=
    fun c' hc' => Function.update_of_ne (hne' c' hc') ..
  have hself : Function.update R c.1 R' c.1 = R' := Function.update_self ..
  have hold : ∀ c' ∈ pre, ∀ a b, R c'.1 a b = 1 → R' a b = 0 := by
    intro c' hc' a b hab
    rcases hR.weights a b with e | e
    · exact e
    · refine absurd ((h.used (srt a b)).2 ⟨key_srt a b, c', hc', ?_⟩) (hdis a b e)
      rcases srt_cases a b with e | e <;> rw [e]
      · exact hab
      · rw [(h.degs c' hc').symm]; exact hab
  constructor
  · refine BuiltP.congr f2 ?_ ?_ (fun _ _ => Iff.rfl) ?_
    · intro x
      simp only [List.map_append, List.map_cons, List.map_nil, List.mem_append, List.mem_singleton, or_and_right,
        exists_or, exists_eq_left, hself]
      refine or_congr (exists_congr fun c' => and_congr_right fun hc' => by rw [hup' c' hc']) (and_congr_right fun _ => ?_)
      simp only [hR1]
      constructor
      · rintro ⟨q, hq, rfl | rfl⟩
        · exact ⟨_, q, hq, .inl ⟨rfl, rfl⟩⟩
        · exact ⟨_, q, hq, .inr ⟨rfl, rfl⟩⟩
      · rintro ⟨b, q, hq, h⟩
        exact ⟨q, hq, h.imp And.left And.left⟩
    · intro s
      simp only [List.map_append, List.map_cons, List.map_nil, List.mem_append, List.mem_singleton, or_and_right,
        exists_or, exists_eq_left, hself]
      refine or_congr (exists_congr fun c' => and_congr_right fun hc' => by rw [hup' c' hc']) (and_congr_right fun _ => ?_)
      simp only [hR1]
      constructor
      · intro hE
        obtain ⟨q, hq⟩ := List.exists_mem_of_ne_nil _ hE
        exact ⟨_, _, q, hq, .inl ⟨rfl, rfl⟩⟩
      · rintro ⟨a, b, q, hq, -⟩
        exact List.ne_nil_of_mem hq
    · intro s a b
      refine ite_or_iff ?_
      simp only [List.map_append, List.map_cons, List.map_nil, List.mem_append, List.mem_singleton, or_and_right,
        exists_or, exists_eq_left, hself, hR1]
      exact or_congr (exists_congr fun c' => and_congr_right fun hc' => by rw [hup' c' hc']) Iff.rfl
  · intro c' hc'
    rcases List.mem_append.1 hc' with hc' | hc'
    · rw [hup c' hc']; exact h.degs c' hc'
    · rw [List.mem_singleton.1 hc', hself]; exact hR
  · intro c' hc'
    rcases List.mem_append.1 hc' with hc' | hc'
    · exact h.even c' hc'
    · rw [List.mem_singleton.1 hc']; exact hev
  · intro c1 h1 c2 h2 hcc a b
    rcases List.mem_append.1 h1 with h1 | h1 <;> rcases List.mem_append.1 h2 with h2 | h2
    · rw [hup c1 h1, hup c2 h2]; exact h.disj c1 h1 c2 h2 hcc a b
    · rw [hup c1 h1, List.mem_singleton.1 h2, hself]; exact hold c1 h1 a b
    · rw [hup c2 h2, List.mem_singleton.1 h1, hself]
      intro hab
      rcases (h.degs c2 h2).weights a b with e | e
      · exact e
      · rw [hold c2 h2 a b e] at hab; exact absurd hab (NeZero.ne' 1)
    · rw [List.mem_singleton] at h1 h2
      exact absurd (by rw [h1, h2]) hcc
  · exact hn
  · intro q
    rw [hu, h.used]
    simp only [List.mem_append, List.mem_singleton, or_and_right, exists_or, exists_eq_left, hself]
    rw [and_or_left]
    exact or_congr (and_congr_right fun _ => exists_congr fun c' => and_congr_right fun hc' => by rw [hup c' hc']) Iff.rfl

theorem ovComb_ends [NeZero (1 : W)] {coupling : Coupling α W} {pre : List (List α × Dict α Nat)}
    {R : List α → α → α → W} {st : MPlex α W × List (α × α)} (h : OvInvC coupling pre R st)
    {c : List α × Dict α Nat} (hc : c.1 ∉ pre.map Prod.fst) (hk : (c.2.map Prod.fst).Nodup)
    (rnd : List α → ConfRandom α) :
    Ends (OvErr c.2) (ovComb rnd st c) (fun st' => ∃ R, OvInvC coupling (pre ++ [c]) R st') := by
  obtain ⟨s1, e1, h1⟩ := stubsNodes_ok fills_net (BuiltM.init (α := α) (W := W)) c.2
  unfold ovComb
  rw [e1]
  dsimp only
  have key1 := ovStubs_ends fills_net (stubs := stubsOf c.2) (zeros := zerosOf c.2) (s := s1)
    (nstubs := (c.2.map Prod.snd).sum) (nodes := List.length c.2) ⟨_, _, h1, ⟨fun _ _ h => h.elim, fun _ _ _ => rfl⟩,
    fun _ _ h => h.elim, fun a ha => .inr ha, fun a ha => ha⟩ (length_stubsOf c.2) h.nodup (fun q => Iff.rfl)
    (fun q hq e => by
      obtain ⟨-, c', hc', hq⟩ := (h.used q).1 hq
      rw [e, (h.degs c' hc').noSelf] at hq
      exact absurd hq (NeZero.ne' 1)) (rnd c.1)
  split
  · rename_i e he
    rw [he] at key1
    cases e with
    | raised e => exact key1
    | more => trivial
  rename_i temp used he
  rw [he] at key1
  obtain ⟨k1, k2, lk, pairs, ⟨S, R', k3, k4, -⟩, k5, k6, k7⟩ := key1
  obtain ⟨d1, d2⟩ := k5.hasDegrees hk k4
  have hkey : ∀ q, lk q → key q = q := by
    intro q hq
    rw [k5.lk, cnt_pos] at hq
    obtain ⟨p, -, rfl⟩ := hq
    exact key_key p
  obtain ⟨es, net', f1, f2, f3⟩ := h.add hc k3 d1 ⟨k1, k2⟩ (fun a b hab => k7 _ ((d2 a b).1 hab)) k6.1 (fun q => by
    rw [k6.2]
    refine or_congr_right ⟨fun hq => ⟨hkey q hq, (d2 _ _).2 (by rw [show srt q.1 q.2 = q from hkey q hq]; exact hq)⟩, ?_⟩
    rintro ⟨a, b⟩
    have := (d2 _ _).1 b
    rw [show srt q.1 q.2 = q from a] at this
    exact this)
  rw [f1]
  dsimp only
  rw [f2]
  exact ⟨_, f3⟩

theorem confOverlaps_ends [NeZero (1 : W)] (coupling : Coupling α W) {degs : Dict (List α) (Dict α Nat)}
    (hk : (degs.map Prod.fst).Nodup) (hkd : ∀ c ∈ degs, (c.2.map Prod.fst).Nodup) (rnd : List α → ConfRandom α) :
    Ends (fun e => ∃ c ∈ degs, OvErr c.2 e) (confOverlaps degs coupling rnd) (fun p => ∃ R used,
      OvInvC coupling degs R (p, used)) := by
  have key1 := forS_ends (B := fun e => ∃ c ∈ degs, OvErr c.2 e) (f := ovComb rnd)
    (P := fun pre st => ∃ R, OvInvC coupling pre R st) degs (s := (MPlex.init [coupling] false 0 true, []))
    ⟨fun _ _ _ => 0, ⟨BuiltP.congr (BuiltP.init coupling true).anyNL (by simp) (by simp) (fun _ _ => Iff.rfl) (by simp),
      by simp, by simp, by simp, by simp, by simp⟩⟩ (by
      rintro pre c post st hl ⟨R, h⟩
      have hc : c ∈ degs := by rw [hl]; simp
      refine (ovComb_ends h ?_ (hkd c hc) rnd).weaken ?_
      · rw [hl, List.map_append, List.map_cons] at hk
        intro hm
        exact (List.nodup_append.1 hk).2.2 _ hm _ (by simp) rfl
      · exact fun e he => ⟨c, hc, he⟩)
  unfold confOverlaps
  split
  · rename_i e he
    rw [he] at key1
    cases e with
    | raised e => exact key1
    | more => trivial
  · rename_i st he
    rw [he] at key1
    obtain ⟨R, h⟩ := key1
    exact ⟨R, st.2, h⟩

end Pymnet
