import Verif.Proofs.Swaps
import Verif.Proofs.Ends

/-! The loops of `single_layer_conf` keep the invariant of the repairs. -/

set_option linter.unusedSectionVars false

namespace Pymnet

open Py Models

variable {α W σ τ : Type} [DecidableEq α] [DecidableEq W] [LinearOrder α] [Zero W] [One W]

theorem retry_ends {B : Err → Prop} {pairs : List (α × α)}
    {body : Nat × Nat → α × α → α × α → Except Err (Option τ)} {Q : τ → Prop}
    (hB : pairs.length < 2 → B .valueError)
    (h : ∀ e p1 p2, e.1 ≠ e.2 → pairs[e.1]? = some p1 → pairs[e.2]? = some p2 →
      (∀ t, body e p1 p2 = .ok (some t) → Q t) ∧ (∀ x, body e p1 p2 = .error x → B x)) (draws : List (Nat × Nat)) :
    Ends B (retry pairs body draws) (fun r => Q r.1) := by
  induction draws with
  | nil =>
    unfold retry
    split
    · rename_i h2; exact hB h2
    · trivial
  | cons e draws ih =>
    unfold retry
    split
    · rename_i h2; exact hB h2
    · split
      · trivial
      · rename_i he
        split
        · rename_i p1 p2 h1 h2
          obtain ⟨h3, h4⟩ := h e p1 p2 he h1 h2
          split
          · rename_i x hx; exact h4 x hx
          · rename_i t ht; exact h3 t ht
          · exact ih
        · trivial

/-! ### the invariant during the repairs -/

section
variable {stubs : List α} {U0 : α × α → Prop} {pend tk : List (α × α)} {pos : α × α → List Nat}
  {pairs : List (α × α)} {lk : α × α → Prop}

theorem Rep.live (h : Rep stubs U0 pend tk pos pairs lk) {k : α × α} (hk : k ∈ pend) (hp : pos k ≠ []) : lk k := by
  have h1 := (h.pos k (.inr (.inl hk))).cnt
  have h2 := h.pendOk k hk
  exact (h.slots.lk k).2 ⟨h2.1, h2.2, by rw [h1]; exact List.length_pos_of_ne_nil hp⟩

theorem Rep.tracked_stubs (h : Rep stubs U0 pend tk pos pairs lk) {k : α × α} (hk : Tracked pend tk k)
    (hkey : key k = k) (hp : pos k ≠ []) : k.1 ∈ stubs ∧ k.2 ∈ stubs := by
  obtain ⟨s, hs⟩ := List.exists_mem_of_ne_nil _ hp
  obtain ⟨p, h1, h2⟩ := ((h.pos k hk).2 s).1 hs
  have := h.mem_stubs (List.mem_of_getElem? h1)
  rcases key_cases p with e | e
  · rw [e] at h2; subst h2; exact this
  · rw [e] at h2; subst h2; exact this.symm

theorem key_stubs (h : Rep stubs U0 pend tk pos pairs lk) {s : Nat} {p : α × α} (hp : pairs[s]? = some p) :
    (key p).1 ∈ stubs ∧ (key p).2 ∈ stubs := by
  have := h.mem_stubs (List.mem_of_getElem? hp)
  rcases key_cases p with e | e <;> rw [e]
  · exact this
  · exact this.symm

end

section
variable {T : Target σ α W} {P : σ → (α → Prop) → (α → α → W) → Prop}

/-- The state of the repairs satisfies the invariant. `len` is the number of pairs. -/
def WInv (P : σ → (α → Prop) → (α → α → W) → Prop) (stubs zeros : List α) (len : Nat) (pend tk : List (α × α))
    (pos : α × α → List Nat) (net : σ) (pairs : List (α × α)) : Prop :=
  ∃ lk, NetOf P (fun a => a ∈ stubs ∨ a ∈ zeros) zeros net lk ∧ Rep stubs (fun _ => False) pend tk pos pairs lk ∧
    pairs.length = len

variable {stubs zeros : List α} {len : Nat} {multi pend : List (α × α)} {pos : α × α → List Nat}

theorem confSelf_ends [NeZero (1 : W)] (F : Fills T P) {w : Work σ α}
    (h : WInv P stubs zeros len multi [] pos w.net w.pairs)
    (hlive : ∀ k ∈ multi, pos k ≠ []) {node : α} {si : Nat} {post : List Nat} (hpos : pos (node, node) = si :: post) :
    Ends (fun e => e = .valueError ∧ len = 1) (confSelf T multi node w si) (fun w' =>
      WInv P stubs zeros len multi [] (Function.update pos (node, node) post) w'.net w'.pairs ∧ w'.eti = w.eti) := by
  obtain ⟨lk, hn, hr, hl⟩ := h
  have key1 := retry_ends (B := fun e => e = .valueError ∧ len = 1) (pairs := w.pairs)
    (body := confSelfTry T multi w.net w.pairs node si)
    (Q := fun t => WInv P stubs zeros len multi [] (Function.update pos (node, node) post) t.1 t.2)
    (fun h2 => ⟨rfl, by
      obtain ⟨p, hp, -⟩ := ((hr.pos (node, node) (.inl rfl)).2 si).1 (by rw [hpos]; simp)
      have := (List.getElem?_eq_some_iff.1 hp).1
      omega⟩) (fun e p1 p2 he h1 h2 => by
      have hsn : node ∈ stubs := (hr.tracked_stubs (k := (node, node)) (.inl rfl) (by simp [key]) (by simp [hpos])).1
      have hs1 := key_stubs hr h1
      have hs2 := key_stubs hr h2
      unfold confSelfTry
      dsimp only
      by_cases hc : [node, p1.1, p1.2, p2.1, p2.2].Nodup ∧ srt p1.1 p1.2 ∉ multi ∧ srt p2.1 p2.2 ∉ multi
      swap
      · rw [if_neg hc]; simp
      rw [if_pos hc]
      obtain ⟨hc1, hc2, hc3⟩ := hc
      obtain ⟨b, hb, hb2⟩ := hn.allZero F [(node, (srt p1.1 p1.2).1), (node, (srt p2.1 p2.2).1),
        ((srt p1.1 p1.2).2, (srt p2.1 p2.2).2)]
      rw [hb]
      cases b
      · simp
      have hz := hb2.1 rfl
      obtain ⟨g1, g2, g3, g4⟩ := hr.selfSwap hpos he h1 h2 hc1 ⟨hc2, by simp⟩ ⟨hc3, by simp⟩
        (fun k hk => hr.live hk (hlive k hk)) (fun q hq => ⟨id, hz q hq⟩)
      have hnk := nodup_keys (l := [node]) hc1
      simp only [List.cons_append, List.nil_append, List.nodup_cons, List.mem_cons, List.not_mem_nil, or_false, not_or,
        not_false_iff, List.nodup_nil, and_true] at hnk
      obtain ⟨net', e2, h3⟩ := hn.writes F [srt p1.1 p1.2, srt p2.1 p2.2] [(node, (srt p1.1 p1.2).1),
        (node, (srt p2.1 p2.2).1), ((srt p1.1 p1.2).2, (srt p2.1 p2.2).2)] (by
          simp only [key] at hnk hs1 hs2
          simp only [List.cons_append, List.nil_append, List.mem_cons, List.not_mem_nil, or_false, forall_eq_or_imp,
            forall_eq]
          tauto)
      have e3 : writes T [(srt p1.1 p1.2, 0), (srt p2.1 p2.2, 0), ((node, (srt p1.1 p1.2).1), 1),
        ((node, (srt p2.1 p2.2).1), 1), (((srt p1.1 p1.2).2, (srt p2.1 p2.2).2), 1)] w.net = .ok net' := e2
      simp only [e3]
      refine ⟨?_, by simp⟩
      rintro t ht
      cases ht
      exact ⟨_, h3, g1, by simp [hl]⟩) w.draws
  unfold confSelf
  split
  · rename_i e he
    rw [he] at key1
    cases e with
    | raised e => exact key1
    | more => trivial
  · rename_i r draws he
    rw [he] at key1
    exact ⟨key1, rfl⟩

theorem confSelfs_ends [NeZero (1 : W)] (F : Fills T P) {w : Work σ α}
    (h : WInv P stubs zeros len multi [] pos w.net w.pairs)
    (hlive : ∀ k ∈ multi, k.1 ≠ k.2 ∧ pos k ≠ []) {selfs : Dict α (List Nat)} (hk : (Dict.keys selfs).Nodup)
    (hsel : ∀ x, pos (x, x) = (Dict.get selfs x).getD []) :
    Ends (fun e => e = .valueError ∧ len = 1)
      (forS (fun w x => forS (confSelf T multi x.1) x.2 w) selfs w) (fun w' =>
      WInv P stubs zeros len multi [] (fun k => if k.1 = k.2 then [] else pos k) w'.net w'.pairs ∧ w'.eti = w.eti) := by
  let posOf : List α → α × α → List Nat := fun l k => if k.1 = k.2 ∧ k.1 ∈ l then [] else pos k
  have hpo : ∀ l k, k.1 ≠ k.2 → posOf l k = pos k := fun l k hk => if_neg fun e => hk e.1
  have key1 := forS_ends (B := fun e => e = .valueError ∧ len = 1)
    (f := fun w (x : α × List Nat) => forS (confSelf T multi x.1) x.2 w)
    (P := fun pre w' => WInv P stubs zeros len multi [] (posOf (pre.map Prod.fst)) w'.net w'.pairs ∧ w'.eti = w.eti)
    selfs (s := w) ⟨by
      obtain ⟨lk, a, b, c⟩ := h
      exact ⟨lk, a, b.congrPos (fun m _ => by simp [posOf]), c⟩, rfl⟩ (by
      rintro pre ⟨node, sis⟩ post w1 hl ⟨h1, h1e⟩
      have hkn : node ∉ pre.map Prod.fst := by
        rw [hl] at hk
        simp only [Dict.keys, List.map_append, List.map_cons] at hk
        have := (List.nodup_append.1 hk).2.2
        intro hm
        exact this _ hm _ (by simp) rfl
      have hgs : Dict.get selfs node = some sis := Dict.get_of_mem hk (by rw [hl]; simp)
      have hp0 : posOf (pre.map Prod.fst) (node, node) = sis := by
        simp only [posOf]
        rw [if_neg (fun e => hkn e.2), hsel, hgs]; rfl
      have inner := forS_ends (B := fun e => e = .valueError ∧ len = 1) (f := confSelf T multi node)
        (P := fun pre2 w' => WInv P stubs zeros len multi []
          (Function.update (posOf (pre.map Prod.fst)) (node, node) (sis.drop pre2.length)) w'.net w'.pairs ∧ w'.eti = w.eti)
        sis (s := w1) ⟨by
          rw [List.length_nil, List.drop_zero, ← hp0, Function.update_eq_self]
          exact h1, h1e⟩ (by
          rintro pre2 si post2 w2 hl2 ⟨h2, h2e⟩
          have hd : sis.drop pre2.length = si :: post2 := by rw [hl2]; simp
          rw [hd] at h2
          refine (confSelf_ends F h2 (fun k hk => ?_) (Function.update_self ..)).mono ?_
          · rw [Function.update_of_ne, hpo _ _ (hlive k hk).1]
            · exact (hlive k hk).2
            · rintro rfl; exact (hlive _ hk).1 rfl
          · rintro w3 ⟨h3, h3e⟩
            rw [Function.update_idem] at h3
            refine ⟨?_, h3e.trans h2e⟩
            have hd2 : sis.drop (pre2 ++ [si]).length = post2 := by
              rw [hl2, show pre2 ++ si :: post2 = (pre2 ++ [si]) ++ post2 by simp]
              exact List.drop_left
            rw [hd2]
            exact h3)
      refine inner.mono ?_
      rintro w3 ⟨⟨lk, a, b, c⟩, h3e⟩
      refine ⟨⟨lk, a, b.congrPos (fun m _ => ?_), c⟩, h3e⟩
      rw [List.drop_length]
      by_cases hm : m = (node, node)
      · subst hm
        rw [Function.update_self]
        simp [posOf]
      · rw [Function.update_of_ne hm]
        simp only [posOf]
        refine ite_iff ?_
        simp only [List.map_append, List.map_cons, List.map_nil, List.mem_append, List.mem_singleton]
        constructor
        · rintro ⟨e, h1 | h1⟩
          · exact ⟨e, h1⟩
          · exact absurd (Prod.ext h1 (e ▸ h1)) hm
        · rintro ⟨e, h1⟩; exact ⟨e, .inl h1⟩)
  refine key1.mono ?_
  rintro w3 ⟨⟨lk, a, b, c⟩, h3e⟩
  refine ⟨⟨lk, a, b.congrPos (fun m _ => ?_), c⟩, h3e⟩
  simp only [posOf]
  by_cases hm : m.1 = m.2
  · rw [if_pos hm]
    split
    · rfl
    · rename_i hne
      have : Dict.get selfs m.1 = none := Dict.get_eq_none.2 fun e => hne ⟨hm, e⟩
      have e : m = (m.1, m.1) := Prod.ext rfl hm.symm
      rw [e, hsel, this]; rfl
  · rw [if_neg hm, if_neg (fun e => hm e.1)]

/-! ### multiple links -/

theorem two_last {β : Type} {l : List β} (h : 2 ≤ l.length) : ∃ rest j i, l = rest ++ [j, i] := by
  rcases List.eq_nil_or_concat l with rfl | ⟨l1, i, rfl⟩
  · simp at h
  · rcases List.eq_nil_or_concat l1 with rfl | ⟨rest, j, rfl⟩
    · simp at h
    · exact ⟨rest, j, i, by simp⟩

theorem confMulti_ends [NeZero (1 : W)] (F : Fills T P) {w : Work σ α}
    (h : WInv P stubs zeros len pend [] pos w.net w.pairs)
    (hsub : ∀ k ∈ pend, k ∈ multi) (hlive : ∀ k ∈ pend, pos k ≠ []) {m : α × α} (hm : m ∈ pend) (hmk : key m = m)
    (h2 : 2 ≤ (pos m).length) (heti : Dict.get w.eti m = some (pos m)) (dummy : Nat) :
    Ends (fun e => e = .valueError ∧ len = 1) (confMulti T multi m w dummy) (fun w' => ∃ rest,
      rest.length + 2 = (pos m).length ∧
      WInv P stubs zeros len pend [] (Function.update pos m rest) w'.net w'.pairs ∧ w'.eti = Dict.set w.eti m rest) := by
  obtain ⟨lk, hn, hr, hl⟩ := h
  obtain ⟨rest, j, i, hpos⟩ := two_last h2
  have hmt : Tracked pend [] m := .inr (.inl hm)
  have key1 := retry_ends (B := fun e => e = .valueError ∧ len = 1) (pairs := w.pairs)
    (body := confMultiTry T multi w.net w.pairs w.eti m)
    (Q := fun t => WInv P stubs zeros len pend [] (Function.update pos m rest) t.1.1 t.1.2 ∧ t.2 = Dict.set w.eti m rest)
    (fun h2 => ⟨rfl, by
      obtain ⟨p, hp, -⟩ := ((hr.pos m hmt).2 i).1 (by rw [hpos]; simp)
      have := (List.getElem?_eq_some_iff.1 hp).1
      omega⟩) (fun e p1 p2 he h1 h2 => by
      have hsn := hr.tracked_stubs hmt hmk (by rw [hpos]; simp)
      have hs1 := key_stubs hr h1
      have hs2 := key_stubs hr h2
      unfold confMultiTry
      dsimp only
      by_cases hc : [m.1, m.2, p1.1, p1.2, p2.1, p2.2].Nodup ∧ srt p1.1 p1.2 ∉ multi ∧ srt p2.1 p2.2 ∉ multi
      swap
      · rw [if_neg hc]; simp
      rw [if_pos hc]
      obtain ⟨hc1, hc2, hc3⟩ := hc
      obtain ⟨b, hb, hb2⟩ := hn.allZero F [(m.1, (srt p1.1 p1.2).1), (m.2, (srt p1.1 p1.2).2),
        (m.1, (srt p2.1 p2.2).1), (m.2, (srt p2.1 p2.2).2)]
      rw [hb]
      cases b
      · simp
      have hz := hb2.1 rfl
      obtain ⟨g1, g2, g3, g4⟩ := hr.multiSwap hm hmk hpos he h1 h2 hc1 ⟨fun e => hc2 (hsub _ e), by simp⟩
        ⟨fun e => hc3 (hsub _ e), by simp⟩ (fun k hk => hr.live hk (hlive k hk)) (fun q hq => ⟨id, hz q hq⟩)
        (D := [key p1, key p2] ++ if rest = [] then [m] else []) (by
          intro q
          by_cases hre : rest = [] <;> simp [hre])
      have hnk := nodup_keys (l := [m.1, m.2]) hc1
      simp only [List.cons_append, List.nil_append, List.nodup_cons, List.mem_cons, List.not_mem_nil, or_false, not_or,
        not_false_iff, List.nodup_nil, and_true] at hnk
      rw [heti]
      dsimp only
      -- the link itself
      obtain ⟨net1, e1, hn1⟩ : ∃ net1, (if (pos m).length = 2 then writes T [(m, 0)] w.net else .ok w.net) = .ok net1 ∧
          NetOf P (fun a => a ∈ stubs ∨ a ∈ zeros) zeros net1 (fun x => lk x ∧ x ∉ (if rest = [] then [m] else [])) := by
        have hrl : (pos m).length = 2 ↔ rest = [] := by
          rw [hpos]; simp
        by_cases hre : rest = []
        · rw [if_pos (hrl.2 hre)]
          obtain ⟨net1, e1, hn1⟩ := hn.writes F [m] [] (by
            simp only [List.cons_append, List.nil_append, List.mem_cons, List.not_mem_nil, or_false, forall_eq]
            exact ⟨hnk.1.1, .inl hsn.1, .inl hsn.2⟩)
          exact ⟨net1, e1, hn1.congr fun q => by simp [hre, hmk]⟩
        · rw [if_neg (fun e => hre (hrl.1 e))]
          exact ⟨_, rfl, hn.congr fun q => by simp [hre]⟩
      rw [e1]
      dsimp only
      have hne1 : ∀ p : α × α, key p ∉ multi → key p ∉ (if rest = [] then [m] else []) := by
        intro p hp hp2
        split at hp2
        · exact hp (by rw [List.mem_singleton.1 hp2]; exact hsub m hm)
        · cases hp2
      rw [hn1.assertOnes F [srt p1.1 p1.2, srt p2.1 p2.2] (by
        simp only [List.mem_cons, List.not_mem_nil, or_false, forall_eq_or_imp, forall_eq, key_srt]
        exact ⟨⟨g3, hne1 p1 hc2⟩, g4, hne1 p2 hc3⟩)]
      dsimp only
      obtain ⟨net', e2, h3⟩ := hn1.writes F [srt p1.1 p1.2, srt p2.1 p2.2] [(m.1, (srt p1.1 p1.2).1),
        (m.2, (srt p1.1 p1.2).2), (m.1, (srt p2.1 p2.2).1), (m.2, (srt p2.1 p2.2).2)] (by
          simp only [key] at hnk hs1 hs2
          simp only [List.cons_append, List.nil_append, List.mem_cons, List.not_mem_nil, or_false, forall_eq_or_imp,
            forall_eq]
          tauto)
      have e3 : writes T [(srt p1.1 p1.2, 0), (srt p2.1 p2.2, 0), ((m.1, (srt p1.1 p1.2).1), 1),
        ((m.2, (srt p1.1 p1.2).2), 1), ((m.1, (srt p2.1 p2.2).1), 1), ((m.2, (srt p2.1 p2.2).2), 1)] net1 = .ok net' := e2
      simp only [e3]
      have l1 : (pos m).getLast? = some i := by rw [hpos]; simp
      have l2 : (pos m).dropLast.getLast? = some j := by rw [hpos]; simp
      have l3 : (pos m).dropLast.dropLast = rest := by rw [hpos]; simp
      simp only [l1, l2, l3]
      refine ⟨?_, by simp⟩
      rintro t ht
      cases ht
      refine ⟨⟨_, h3, g1.congrLk fun q => ?_, by simp [hl]⟩, rfl⟩
      simp only [List.mem_append, not_or, List.map_cons, List.map_nil, key_srt]
      simp only [key]
      tauto) w.draws
  unfold confMulti
  split
  · rename_i e he
    rw [he] at key1
    cases e with
    | raised e => exact key1
    | more => trivial
  · rename_i r draws he
    rw [he] at key1
    exact ⟨rest, by rw [hpos]; simp, key1⟩

/-- the state between the multiple links: `pend` are those to come -/
def MInv (P : σ → (α → Prop) → (α → α → W) → Prop) (stubs zeros : List α) (len : Nat) (pend : List (α × α))
    (w : Work σ α) : Prop :=
  ∃ pos, WInv P stubs zeros len pend [] pos w.net w.pairs ∧ (∀ k ∈ pend, pos k ≠ [] ∧ Dict.get w.eti k = some (pos k)) ∧
    ∀ x, pos (x, x) = []

theorem confMultis_ends [NeZero (1 : W)] (F : Fills T P) {w : Work σ α} {m : α × α} {t : List (α × α)}
    (h : MInv P stubs zeros len (m :: t) w) (hsub : ∀ k ∈ m :: t, k ∈ multi) (hmk : key m = m) (hmt : m ∉ t) :
    Ends (fun e => e = .valueError ∧ len = 1) (confMultis T multi w m) (MInv P stubs zeros len t) := by
  obtain ⟨pos, h1, h2, h3⟩ := h
  have hmd : m.1 ≠ m.2 := by
    obtain ⟨lk, -, hr, -⟩ := h1
    exact (hr.pendOk m (by simp)).1
  unfold confMultis
  rw [(h2 m (by simp)).2]
  dsimp only
  have key1 := forS_ends (B := fun e => e = .valueError ∧ len = 1) (f := confMulti T multi m)
    (P := fun pre w' => ∃ is, is.length + 2 * pre.length = (pos m).length ∧
      WInv P stubs zeros len (m :: t) [] (Function.update pos m is) w'.net w'.pairs ∧ Dict.get w'.eti m = some is ∧
      ∀ k ∈ t, Dict.get w'.eti k = some (pos k))
    (List.range ((pos m).length / 2)) (s := w)
    ⟨pos m, by simp, by rw [Function.update_eq_self]; exact h1, (h2 m (by simp)).2, fun k hk => (h2 k (by simp [hk])).2⟩ (by
      rintro pre d post w1 hl ⟨is, hlen, hw, he, ht⟩
      have hll : pre.length + 1 + post.length = (pos m).length / 2 := by
        have := congrArg List.length hl
        simp at this; omega
      have hu : Function.update pos m is m = is := Function.update_self ..
      refine (confMulti_ends F hw hsub (fun k hk => ?_) (by simp) hmk (by rw [hu]; omega) (by rw [hu]; exact he) d).mono ?_
      · by_cases e : k = m
        · subst e
          rw [hu]
          intro hn; subst hn; simp at hlen; omega
        · rw [Function.update_of_ne e]; exact (h2 k hk).1
      · rintro w2 ⟨rest, r1, r2, r3⟩
        rw [hu] at r1
        rw [Function.update_idem] at r2
        refine ⟨rest, by simp; omega, r2, by rw [r3]; exact Dict.get_set_self _ _ _, fun k hk => ?_⟩
        rw [r3, Dict.get_set_ne]
        · exact ht k hk
        · rintro rfl; exact hmt hk)
  refine key1.mono ?_
  rintro w1 ⟨is, hlen, ⟨lk, a, b, c⟩, he, ht⟩
  rw [List.length_range] at hlen
  refine ⟨Function.update pos m is, ⟨lk, a, b.dropPend ?_, c⟩, fun k hk => ?_, fun x => ?_⟩
  · rw [Function.update_self]; omega
  · have hkm : k ≠ m := by rintro rfl; exact hmt hk
    rw [Function.update_of_ne hkm]
    exact ⟨(h2 k (by simp [hk])).1, ht k hk⟩
  · rw [Function.update_of_ne]
    · exact h3 x
    · rintro rfl; exact hmd rfl

end

end Pymnet
