import Verif.Proofs.Conf
import Verif.Proofs.ConfReach
import Verif.Model.ConfOverlaps

/-! The loops of `conf_overlaps` keep the invariant of the repairs. -/

set_option linter.unusedSectionVars false

namespace Pymnet

open Py Models

variable {α W σ τ : Type} [DecidableEq α] [DecidableEq W] [LinearOrder α] [Zero W] [One W]

theorem removes_ok {β : Type} [DecidableEq β] (L : List β) : ∀ {s : List β}, s.Nodup → L.Nodup → (∀ x ∈ L, x ∈ s) →
    ∃ s', removes s L = .ok s' ∧ s'.Nodup ∧ ∀ q, q ∈ s' ↔ q ∈ s ∧ q ∉ L := by
  induction L with
  | nil => exact fun {s} h _ _ => ⟨s, by simp [removes], h, by simp⟩
  | cons x t ih =>
    intro s h hL hs
    obtain ⟨h1, h2⟩ := List.nodup_cons.1 hL
    obtain ⟨s', e, h3, h4⟩ := ih (s := s.erase x) (h.erase x) h2 (fun y hy => by
      rw [h.mem_erase_iff]
      exact ⟨fun e => h1 (e ▸ hy), hs y (by simp [hy])⟩)
    refine ⟨s', by rw [removes, if_pos (hs x (by simp))]; exact e, h3, fun q => ?_⟩
    rw [h4, h.mem_erase_iff, List.mem_cons, not_or]
    tauto

theorem mem_adds {β : Type} [DecidableEq β] {s L : List β} {x : β} : x ∈ adds s L ↔ x ∈ s ∨ x ∈ L := by
  unfold adds
  induction L generalizing s with
  | nil => simp
  | cons y t ih => simp [ih, or_assoc]

theorem nodup_adds {β : Type} [DecidableEq β] {s : List β} (h : s.Nodup) (L : List β) : (adds s L).Nodup := by
  unfold adds
  induction L generalizing s with
  | nil => exact h
  | cons y t ih => exact ih (nodup_sadd h y)

/-- the used edges are those of other combinations and those of this one -/
def Used (U0 lk : α × α → Prop) (used : List (α × α)) : Prop := used.Nodup ∧ ∀ q, q ∈ used ↔ U0 q ∨ lk q

theorem Used.congr {U0 lk lk' : α × α → Prop} {used : List (α × α)} (h : Used U0 lk used) (hl : ∀ q, lk' q ↔ lk q) :
    Used U0 lk' used := ⟨h.1, fun q => by rw [h.2, hl]⟩

theorem Used.remove {U0 lk : α × α → Prop} {used : List (α × α)} (h : Used U0 lk used) {D : List (α × α)}
    (hD : D.Nodup) (hl : ∀ q ∈ D, lk q) (hU : ∀ q, lk q → ¬ U0 q) :
    ∃ used', removes used D = .ok used' ∧ Used U0 (fun q => lk q ∧ q ∉ D) used' := by
  obtain ⟨u, e, h1, h2⟩ := removes_ok D h.1 hD (fun q hq => (h.2 q).2 (.inr (hl q hq)))
  refine ⟨u, e, h1, fun q => ?_⟩
  rw [h2, h.2]
  constructor
  · rintro ⟨a | a, b⟩
    · exact .inl a
    · exact .inr ⟨a, b⟩
  · rintro (a | a)
    · exact ⟨.inl a, fun hq => hU q (hl q hq) a⟩
    · exact ⟨.inr a.1, a.2⟩

theorem Used.add {U0 lk : α × α → Prop} {used : List (α × α)} (h : Used U0 lk used) (N : List (α × α)) :
    Used U0 (fun q => lk q ∨ q ∈ N) (adds used N) :=
  ⟨nodup_adds h.1 N, fun q => by rw [mem_adds, h.2, or_assoc]⟩

section
variable {stubs : List α} {U0 : α × α → Prop} {pend tk : List (α × α)} {pos : α × α → List Nat}
  {pairs : List (α × α)} {lk : α × α → Prop}

theorem Rep.notUsed (h : Rep stubs U0 pend tk pos pairs lk) {q : α × α} (hq : lk q) : ¬ U0 q := ((h.slots.lk q).1 hq).2.1

theorem Rep.permTk {tk' : List (α × α)} (h : Rep stubs U0 pend tk pos pairs lk) (hp : ∀ m, m ∈ tk' ↔ m ∈ tk) :
    Rep stubs U0 pend tk' pos pairs lk :=
  ⟨h.slots, fun k hk => h.pos k (by simpa [Tracked, hp] using hk), fun p a b => (hp _).2 (h.bad p a b), h.pendOk,
    fun k hk => h.tkOk k ((hp k).1 hk)⟩

theorem Rep.simpleU (h : Rep stubs U0 [] [] pos pairs lk) (hd : ∀ x, pos (x, x) = []) : Simple stubs pairs lk := by
  have hdiag : ∀ q : α × α, q.1 = q.2 → cnt q pairs = 0 := by
    intro q hq
    rw [(h.pos q (.inl hq)).cnt]
    have : q = (q.1, q.1) := Prod.ext rfl hq.symm
    rw [this, hd]; rfl
  have hU : ∀ q, 0 < cnt q pairs → ¬ U0 q := by
    intro q hq hu
    obtain ⟨p, hp, rfl⟩ := cnt_pos.1 hq
    cases h.bad p hp hu
  refine ⟨h.slots.deg, fun q => ?_, fun q => ?_, fun p hp e => ?_⟩
  · rw [h.slots.lk]
    constructor
    · exact fun x => x.2.2
    · intro x
      exact ⟨fun e => by rw [hdiag q e] at x; omega, hU q x, x⟩
  · by_cases e : q.1 = q.2
    · rw [hdiag q e]; omega
    · by_cases hu : U0 q
      · by_contra hc
        exact hU q (by omega) hu
      · exact h.slots.one q e hu (by simp)
  · have h1 := hdiag (key p) (srt_diag.2 e)
    have : 0 < cnt (key p) pairs := cnt_pos.2 ⟨p, hp, rfl⟩
    omega

end

section
variable {T : Target σ α W} {P : σ → (α → Prop) → (α → α → W) → Prop}

/-- The state of the repairs satisfies the invariant. -/
def OInv (P : σ → (α → Prop) → (α → α → W) → Prop) (stubs zeros : List α) (U0 : α × α → Prop) (len : Nat)
    (pend tk : List (α × α)) (pos : α × α → List Nat) (w : OWork σ α) : Prop :=
  ∃ lk, NetOf P (fun a => a ∈ stubs ∨ a ∈ zeros) zeros w.net lk ∧ Rep stubs U0 pend tk pos w.pairs lk ∧
    w.pairs.length = len ∧ Used U0 lk w.used

variable {stubs zeros : List α} {U0 : α × α → Prop} {len : Nat} {multi taken pend tk : List (α × α)}
  {pos : α × α → List Nat}

theorem OInv.congrPos {w : OWork σ α} {pos' : α × α → List Nat} (h : OInv P stubs zeros U0 len pend tk pos w)
    (hp : ∀ m, Tracked pend tk m → pos' m = pos m) : OInv P stubs zeros U0 len pend tk pos' w := by
  obtain ⟨lk, a, b, c, d⟩ := h
  exact ⟨lk, a, b.congrPos hp, c, d⟩

theorem OInv.draws {w : OWork σ α} (h : OInv P stubs zeros U0 len pend tk pos w) (draws : List (Nat × Nat)) :
    OInv P stubs zeros U0 len pend tk pos { w with draws } := h

theorem ovSelf_ends [NeZero (1 : W)] (F : Fills T P) {w : OWork σ α}
    (h : OInv P stubs zeros U0 len multi taken pos w)
    (hlive : ∀ k ∈ multi, pos k ≠ []) {node : α} {si : Nat} {post : List Nat} (hpos : pos (node, node) = si :: post) :
    Ends (fun e => e = .valueError ∧ len = 1) (ovSelf T multi taken node w si) (fun w' =>
      OInv P stubs zeros U0 len multi taken (Function.update pos (node, node) post) w' ∧ w'.eti = w.eti) := by
  obtain ⟨lk, hn, hr, hl, hu⟩ := h
  have key1 := retry_ends (B := fun e => e = .valueError ∧ len = 1) (pairs := w.pairs)
    (body := ovSelfTry T multi taken node si w)
    (Q := fun t => OInv P stubs zeros U0 len multi taken (Function.update pos (node, node) post) t ∧ t.eti = w.eti)
    (fun h2 => ⟨rfl, by
      obtain ⟨p, hp, -⟩ := ((hr.pos (node, node) (.inl rfl)).2 si).1 (by rw [hpos]; simp)
      have := (List.getElem?_eq_some_iff.1 hp).1
      omega⟩) (fun e p1 p2 he h1 h2 => by
      have hsn : node ∈ stubs := (hr.tracked_stubs (k := (node, node)) (.inl rfl) (by simp [key]) (by simp [hpos])).1
      have hs1 := key_stubs hr h1
      have hs2 := key_stubs hr h2
      unfold ovSelfTry
      dsimp only
      by_cases hc1 : [node, p1.1, p1.2, p2.1, p2.2].Nodup
      swap
      · rw [if_neg hc1]; simp
      by_cases hc : srt p1.1 p1.2 ∉ multi ∧ srt p2.1 p2.2 ∉ multi ∧ srt p1.1 p1.2 ∉ taken ∧ srt p2.1 p2.2 ∉ taken
      swap
      · rw [if_pos hc1, if_neg hc]; simp
      by_cases hz : ∀ k ∈ [srt node (srt p1.1 p1.2).1, srt node (srt p2.1 p2.2).1,
          srt (srt p1.1 p1.2).2 (srt p2.1 p2.2).2], k ∉ w.used
      swap
      · rw [if_pos hc1, if_pos hc, if_neg hz]; simp
      rw [if_pos hc1, if_pos hc, if_pos hz]
      obtain ⟨hc2, hc3, hc4, hc5⟩ := hc
      obtain ⟨g1, g2, g3, g4⟩ := hr.selfSwap hpos he h1 h2 hc1 ⟨hc2, hc4⟩ ⟨hc3, hc5⟩
        (fun k hk => hr.live hk (hlive k hk)) (fun q hq => by
          have := hz (key q) (by
            simp only [List.mem_cons, List.not_mem_nil, or_false] at hq
            rcases hq with rfl | rfl | rfl <;> simp [key])
          rw [hu.2, not_or] at this
          exact this)
      have hnk := nodup_keys (l := [node]) hc1
      simp only [List.cons_append, List.nil_append, List.nodup_cons, List.mem_cons, List.not_mem_nil, or_false, not_or,
        not_false_iff, List.nodup_nil, and_true] at hnk
      obtain ⟨net', e2, h3⟩ := hn.writes F [srt p1.1 p1.2, srt p2.1 p2.2] [(node, (srt p1.1 p1.2).1),
        (node, (srt p2.1 p2.2).1), ((srt p1.1 p1.2).2, (srt p2.1 p2.2).2)] (by
          simp only [key] at hnk hs1 hs2
          simp only [List.cons_append, List.nil_append, List.mem_cons, List.not_mem_nil, or_false, forall_eq_or_imp,
            forall_eq]
          tauto)
      have e3 : writes T [(srt p1.1 p1.2, 0), (srt p2.1 p2.2, 0), ((node, (srt p1.1 p1.2).1), 1),
        ((node, (srt p2.1 p2.2).1), 1), (((srt p1.1 p1.2).2, (srt p2.1 p2.2).2), 1)] w.net = .ok net' := e2
      have hne : srt p1.1 p1.2 ≠ srt p2.1 p2.2 := by
        intro e
        have : (key p1).1 = (key p2).1 := by simp only [key, e]
        exact hnk.2.1.2.1 this
      obtain ⟨u, e4, h4⟩ := hu.remove (D := [srt p1.1 p1.2, srt p2.1 p2.2]) (by simp [hne]) (by
        simp only [List.mem_cons, List.not_mem_nil, or_false, forall_eq_or_imp, forall_eq]
        exact ⟨g3, g4⟩) (fun q hq => hr.notUsed hq)
      simp only [e3, e4]
      refine ⟨?_, by simp⟩
      rintro t ht
      cases ht
      refine ⟨⟨_, h3, g1, by simp [hl], (h4.add _).congr fun q => ?_⟩, rfl⟩
      simp only [List.map_cons, List.map_nil, key_srt]
      simp only [key]) w.draws
  unfold ovSelf
  split
  · rename_i e he
    rw [he] at key1
    cases e with
    | raised e => exact key1
    | more => trivial
  · rename_i r draws he
    rw [he] at key1
    exact key1

theorem ovSelfs_ends [NeZero (1 : W)] (F : Fills T P) {w : OWork σ α}
    (h : OInv P stubs zeros U0 len multi taken pos w)
    (hlive : ∀ k ∈ multi, k.1 ≠ k.2 ∧ pos k ≠ []) {selfs : Dict α (List Nat)} (hk : (Dict.keys selfs).Nodup)
    (hsel : ∀ x, pos (x, x) = (Dict.get selfs x).getD []) :
    Ends (fun e => e = .valueError ∧ len = 1)
      (forS (fun w x => forS (ovSelf T multi taken x.1) x.2 w) selfs w) (fun w' =>
      OInv P stubs zeros U0 len multi taken (fun k => if k.1 = k.2 then [] else pos k) w' ∧ w'.eti = w.eti) := by
  let posOf : List α → α × α → List Nat := fun l k => if k.1 = k.2 ∧ k.1 ∈ l then [] else pos k
  have hpo : ∀ l k, k.1 ≠ k.2 → posOf l k = pos k := fun l k hk => if_neg fun e => hk e.1
  have key1 := forS_ends (B := fun e => e = .valueError ∧ len = 1)
    (f := fun w (x : α × List Nat) => forS (ovSelf T multi taken x.1) x.2 w)
    (P := fun pre w' => OInv P stubs zeros U0 len multi taken (posOf (pre.map Prod.fst)) w' ∧ w'.eti = w.eti)
    selfs (s := w) ⟨h.congrPos (fun m _ => by simp [posOf]), rfl⟩ (by
      rintro pre ⟨node, sis⟩ post w1 hl ⟨h1, h1e⟩
      have hkn : node ∉ pre.map Prod.fst := by
        rw [hl] at hk
        simp only [Dict.keys, List.map_append, List.map_cons] at hk
        have := (List.nodup_append.1 hk).2.2
        intro hm
        exact this _ hm _ (by simp) rfl
      have hgs : Dict.get selfs node = some sis := Dict.get_of_mem hk (by rw [hl]; simp)
      have hp0 : posOf (pre.map Prod.fst) (node, node) = sis := by
        simp only [posOf]
        rw [if_neg (fun e => hkn e.2), hsel, hgs]; rfl
      have inner := forS_ends (B := fun e => e = .valueError ∧ len = 1) (f := ovSelf T multi taken node)
        (P := fun pre2 w' => OInv P stubs zeros U0 len multi taken
          (Function.update (posOf (pre.map Prod.fst)) (node, node) (sis.drop pre2.length)) w' ∧ w'.eti = w.eti)
        sis (s := w1) ⟨by
          rw [List.length_nil, List.drop_zero, ← hp0, Function.update_eq_self]
          exact h1, h1e⟩ (by
          rintro pre2 si post2 w2 hl2 ⟨h2, h2e⟩
          have hd : sis.drop pre2.length = si :: post2 := by rw [hl2]; simp
          rw [hd] at h2
          refine (ovSelf_ends F h2 (fun k hk => ?_) (Function.update_self ..)).mono ?_
          · rw [Function.update_of_ne, hpo _ _ (hlive k hk).1]
            · exact (hlive k hk).2
            · rintro rfl; exact (hlive _ hk).1 rfl
          · rintro w3 ⟨h3, h3e⟩
            rw [Function.update_idem] at h3
            refine ⟨?_, h3e.trans h2e⟩
            have hd2 : sis.drop (pre2 ++ [si]).length = post2 := by
              rw [hl2, show pre2 ++ si :: post2 = (pre2 ++ [si]) ++ post2 by simp]
              exact List.drop_left
            rw [hd2]
            exact h3)
      refine inner.mono ?_
      rintro w3 ⟨h3, h3e⟩
      refine ⟨h3.congrPos (fun m _ => ?_), h3e⟩
      rw [List.drop_length]
      by_cases hm : m = (node, node)
      · subst hm
        rw [Function.update_self]
        simp [posOf]
      · rw [Function.update_of_ne hm]
        simp only [posOf]
        refine ite_iff ?_
        simp only [List.map_append, List.map_cons, List.map_nil, List.mem_append, List.mem_singleton]
        constructor
        · rintro ⟨e, h1 | h1⟩
          · exact ⟨e, h1⟩
          · exact absurd (Prod.ext h1 (e ▸ h1)) hm
        · rintro ⟨e, h1⟩; exact ⟨e, .inl h1⟩)
  refine key1.mono ?_
  rintro w3 ⟨h3, h3e⟩
  refine ⟨h3.congrPos (fun m _ => ?_), h3e⟩
  simp only [posOf]
  by_cases hm : m.1 = m.2
  · rw [if_pos hm]
    split
    · rfl
    · rename_i hne
      have : Dict.get selfs m.1 = none := Dict.get_eq_none.2 fun e => hne ⟨hm, e⟩
      have e : m = (m.1, m.1) := Prod.ext rfl hm.symm
      rw [e, hsel, this]; rfl
  · rw [if_neg hm, if_neg (fun e => hm e.1)]

/-! ### multiple links -/

set_option maxHeartbeats 1000000 in
theorem ovMulti_ends [NeZero (1 : W)] (F : Fills T P) {w : OWork σ α}
    (h : OInv P stubs zeros U0 len pend taken pos w)
    (hsub : ∀ k ∈ pend, k ∈ multi) (hlive : ∀ k ∈ pend, pos k ≠ []) {m : α × α} (hm : m ∈ pend) (hmk : key m = m)
    (h2 : 2 ≤ (pos m).length) (heti : Dict.get w.eti m = some (pos m)) (dummy : Nat) :
    Ends (fun e => e = .valueError ∧ len = 1) (ovMulti T multi taken m w dummy) (fun w' => ∃ rest,
      rest.length + 2 = (pos m).length ∧
      OInv P stubs zeros U0 len pend taken (Function.update pos m rest) w' ∧ w'.eti = Dict.set w.eti m rest) := by
  obtain ⟨lk, hn, hr, hl, hu⟩ := h
  obtain ⟨rest, j, i, hpos⟩ := two_last h2
  have hmt : Tracked pend taken m := .inr (.inl hm)
  have key1 := retry_ends (B := fun e => e = .valueError ∧ len = 1) (pairs := w.pairs)
    (body := ovMultiTry T multi taken m w)
    (Q := fun t => OInv P stubs zeros U0 len pend taken (Function.update pos m rest) t ∧ t.eti = Dict.set w.eti m rest)
    (fun h2 => ⟨rfl, by
      obtain ⟨p, hp, -⟩ := ((hr.pos m hmt).2 i).1 (by rw [hpos]; simp)
      have := (List.getElem?_eq_some_iff.1 hp).1
      omega⟩) (fun e p1 p2 he h1 h2 => by
      have hsn := hr.tracked_stubs hmt hmk (by rw [hpos]; simp)
      have hs1 := key_stubs hr h1
      have hs2 := key_stubs hr h2
      unfold ovMultiTry
      dsimp only
      by_cases hc1 : [m.1, m.2, p1.1, p1.2, p2.1, p2.2].Nodup
      swap
      · rw [if_neg hc1]; simp
      by_cases hc : srt p1.1 p1.2 ∉ multi ∧ srt p2.1 p2.2 ∉ multi ∧ srt p1.1 p1.2 ∉ taken ∧ srt p2.1 p2.2 ∉ taken
      swap
      · rw [if_pos hc1, if_neg hc]; simp
      by_cases hz : ∀ k ∈ [srt m.1 (srt p1.1 p1.2).1, srt m.2 (srt p1.1 p1.2).2, srt m.1 (srt p2.1 p2.2).1,
          srt m.2 (srt p2.1 p2.2).2], k ∉ w.used
      swap
      · rw [if_pos hc1, if_pos hc, if_neg hz]; simp
      rw [if_pos hc1, if_pos hc, if_pos hz]
      obtain ⟨hc2, hc3, hc4, hc5⟩ := hc
      obtain ⟨g1, g2, g3, g4⟩ := hr.multiSwap hm hmk hpos he h1 h2 hc1 ⟨fun e => hc2 (hsub _ e), hc4⟩
        ⟨fun e => hc3 (hsub _ e), hc5⟩ (fun k hk => hr.live hk (hlive k hk)) (fun q hq => by
          have := hz (key q) (by
            simp only [List.mem_cons, List.not_mem_nil, or_false] at hq
            rcases hq with rfl | rfl | rfl | rfl <;> simp [key])
          rw [hu.2, not_or] at this
          exact this)
        (D := [key p1, key p2] ++ if rest = [] then [m] else []) (by
          intro q
          by_cases hre : rest = [] <;> simp [hre])
      have hnk := nodup_keys (l := [m.1, m.2]) hc1
      simp only [List.cons_append, List.nil_append, List.nodup_cons, List.mem_cons, List.not_mem_nil, or_false, not_or,
        not_false_iff, List.nodup_nil, and_true] at hnk
      rw [heti]
      dsimp only
      have hrl : (pos m).length = 2 ↔ rest = [] := by
        rw [hpos]; simp
      -- the link itself
      obtain ⟨net1, e1, hn1⟩ : ∃ net1, writes T (if (pos m).length = 2 then [(m, (0 : W))] else []) w.net = .ok net1 ∧
          NetOf P (fun a => a ∈ stubs ∨ a ∈ zeros) zeros net1 (fun x => lk x ∧ x ∉ (if rest = [] then [m] else [])) := by
        by_cases hre : rest = []
        · rw [if_pos (hrl.2 hre)]
          obtain ⟨net1, e1, hn1⟩ := hn.writes F [m] [] (by
            simp only [List.cons_append, List.nil_append, List.mem_cons, List.not_mem_nil, or_false, forall_eq]
            exact ⟨hnk.1.1, .inl hsn.1, .inl hsn.2⟩)
          exact ⟨net1, e1, hn1.congr fun q => by simp [hre, hmk]⟩
        · rw [if_neg (fun e => hre (hrl.1 e))]
          exact ⟨_, rfl, hn.congr fun q => by simp [hre]⟩
      obtain ⟨u1, f1, hu1⟩ : ∃ u1, removes w.used (if (pos m).length = 2 then [m] else []) = .ok u1 ∧
          Used U0 (fun x => lk x ∧ x ∉ (if rest = [] then [m] else [])) u1 := by
        by_cases hre : rest = []
        · rw [if_pos (hrl.2 hre), if_pos hre]
          exact hu.remove (by simp) (by simpa using hr.live hm (hlive m hm)) (fun q hq => hr.notUsed hq)
        · rw [if_neg (fun e => hre (hrl.1 e)), if_neg hre]
          exact hu.remove (by simp) (by simp) (fun q hq => hr.notUsed hq)
      rw [e1]
      dsimp only
      rw [f1]
      dsimp only
      have hne1 : ∀ p : α × α, key p ∉ multi → key p ∉ (if rest = [] then [m] else []) := by
        intro p hp hp2
        split at hp2
        · exact hp (by rw [List.mem_singleton.1 hp2]; exact hsub m hm)
        · cases hp2
      obtain ⟨net', e2, h3⟩ := hn1.writes F [srt p1.1 p1.2, srt p2.1 p2.2] [(m.1, (srt p1.1 p1.2).1),
        (m.2, (srt p1.1 p1.2).2), (m.1, (srt p2.1 p2.2).1), (m.2, (srt p2.1 p2.2).2)] (by
          simp only [key] at hnk hs1 hs2
          simp only [List.cons_append, List.nil_append, List.mem_cons, List.not_mem_nil, or_false, forall_eq_or_imp,
            forall_eq]
          tauto)
      have e3 : writes T [(srt p1.1 p1.2, 0), (srt p2.1 p2.2, 0), ((m.1, (srt p1.1 p1.2).1), 1),
        ((m.2, (srt p1.1 p1.2).2), 1), ((m.1, (srt p2.1 p2.2).1), 1), ((m.2, (srt p2.1 p2.2).2), 1)] net1 = .ok net' := e2
      have hne : srt p1.1 p1.2 ≠ srt p2.1 p2.2 := by
        intro e
        have : (key p1).1 = (key p2).1 := by simp only [key, e]
        exact hnk.2.2.1.2.1 this
      obtain ⟨u, e4, h4⟩ := hu1.remove (D := [srt p1.1 p1.2, srt p2.1 p2.2]) (by simp [hne]) (by
        simp only [List.mem_cons, List.not_mem_nil, or_false, forall_eq_or_imp, forall_eq]
        exact ⟨⟨g3, hne1 p1 hc2⟩, g4, hne1 p2 hc3⟩) (fun q hq => hr.notUsed hq.1)
      simp only [e3]
      have l1 : (pos m).getLast? = some i := by rw [hpos]; simp
      have l2 : (pos m).dropLast.getLast? = some j := by rw [hpos]; simp
      have l3 : (pos m).dropLast.dropLast = rest := by rw [hpos]; simp
      simp only [l1, l2, l3, e4]
      refine ⟨?_, by simp⟩
      rintro t ht
      cases ht
      refine ⟨⟨_, h3, g1.congrLk fun q => ?_, by simp [hl], (h4.add _).congr fun q => ?_⟩, rfl⟩
      · simp only [List.mem_append, not_or, List.map_cons, List.map_nil, key_srt]
        simp only [key]
        tauto
      · simp only [List.map_cons, List.map_nil, key_srt]
        simp only [key]) w.draws
  unfold ovMulti
  split
  · rename_i e he
    rw [he] at key1
    cases e with
    | raised e => exact key1
    | more => trivial
  · rename_i r draws he
    rw [he] at key1
    exact ⟨rest, by rw [hpos]; simp, key1⟩

/-- the state between the multiple links: `pend` are those to come -/
def OMInv (P : σ → (α → Prop) → (α → α → W) → Prop) (stubs zeros : List α) (U0 : α × α → Prop) (len : Nat)
    (pend tk : List (α × α)) (w : OWork σ α) : Prop :=
  ∃ pos, OInv P stubs zeros U0 len pend tk pos w ∧ (∀ k ∈ pend, pos k ≠ [] ∧ Dict.get w.eti k = some (pos k)) ∧
    (∀ k ∈ tk, Dict.get w.eti k = some (pos k)) ∧ ∀ x, pos (x, x) = []

theorem ovMultis_ends [NeZero (1 : W)] (F : Fills T P) {w : OWork σ α} {m : α × α} {t : List (α × α)}
    (h : OMInv P stubs zeros U0 len (m :: t) taken w) (hsub : ∀ k ∈ m :: t, k ∈ multi) (hmk : key m = m) (hmt : m ∉ t) :
    Ends (fun e => e = .valueError ∧ len = 1) (ovMultis T multi taken w m) (OMInv P stubs zeros U0 len t taken) := by
  obtain ⟨pos, h1, h2, h2t, h3⟩ := h
  have hmd : m.1 ≠ m.2 ∧ m ∉ taken := by
    obtain ⟨lk, -, hr, -⟩ := h1
    exact ⟨(hr.pendOk m (by simp)).1, fun hc => (hr.pendOk m (by simp)).2 (hr.tkOk m hc).2⟩
  unfold ovMultis
  rw [(h2 m (by simp)).2]
  dsimp only
  have key1 := forS_ends (B := fun e => e = .valueError ∧ len = 1) (f := ovMulti T multi taken m)
    (P := fun pre w' => ∃ is, is.length + 2 * pre.length = (pos m).length ∧
      OInv P stubs zeros U0 len (m :: t) taken (Function.update pos m is) w' ∧ Dict.get w'.eti m = some is ∧
      (∀ k ∈ t, Dict.get w'.eti k = some (pos k)) ∧ ∀ k ∈ taken, Dict.get w'.eti k = some (pos k))
    (List.range ((pos m).length / 2)) (s := w)
    ⟨pos m, by simp, by rw [Function.update_eq_self]; exact h1, (h2 m (by simp)).2, fun k hk => (h2 k (by simp [hk])).2,
      h2t⟩ (by
      rintro pre d post w1 hl ⟨is, hlen, hw, he, ht, htk⟩
      have hll : pre.length + 1 + post.length = (pos m).length / 2 := by
        have := congrArg List.length hl
        simp at this; omega
      have hu : Function.update pos m is m = is := Function.update_self ..
      refine (ovMulti_ends F hw hsub (fun k hk => ?_) (by simp) hmk (by rw [hu]; omega) (by rw [hu]; exact he) d).mono ?_
      · by_cases e : k = m
        · subst e
          rw [hu]
          intro hn; subst hn; simp at hlen; omega
        · rw [Function.update_of_ne e]; exact (h2 k hk).1
      · rintro w2 ⟨rest, r1, r2, r3⟩
        rw [hu] at r1
        rw [Function.update_idem] at r2
        refine ⟨rest, by simp; omega, r2, by rw [r3]; exact Dict.get_set_self _ _ _, fun k hk => ?_, fun k hk => ?_⟩
        · rw [r3, Dict.get_set_ne]
          · exact ht k hk
          · rintro rfl; exact hmt hk
        · rw [r3, Dict.get_set_ne]
          · exact htk k hk
          · rintro rfl; exact hmd.2 hk)
  refine key1.mono ?_
  rintro w1 ⟨is, hlen, ⟨lk, a, b, c, d⟩, he, ht, htk⟩
  rw [List.length_range] at hlen
  refine ⟨Function.update pos m is, ⟨lk, a, b.dropPend ?_, c, d⟩, fun k hk => ?_, fun k hk => ?_, fun x => ?_⟩
  · rw [Function.update_self]; omega
  · have hkm : k ≠ m := by rintro rfl; exact hmt hk
    rw [Function.update_of_ne hkm]
    exact ⟨(h2 k (by simp [hk])).1, ht k hk⟩
  · have hkm : k ≠ m := by rintro rfl; exact hmd.2 hk
    rw [Function.update_of_ne hkm]
    exact htk k hk
  · rw [Function.update_of_ne]
    · exact h3 x
    · rintro rfl; exact hmd.1 rfl

/-! ### taken links -/

theorem ovTaken_ends [NeZero (1 : W)] (F : Fills T P) {w : OWork σ α}
    (h : OInv P stubs zeros U0 len [] tk pos w) (hsub : ∀ k ∈ tk, k ∈ taken) {m : α × α} (hm : m ∈ tk) (hmk : key m = m)
    {si : Nat} {post : List Nat} (hpos : pos m = si :: post) :
    Ends (fun e => e = .valueError ∧ len = 1) (ovTaken T taken m w si) (fun w' =>
      OInv P stubs zeros U0 len [] tk (Function.update pos m post) w' ∧ w'.eti = w.eti) := by
  obtain ⟨lk, hn, hr, hl, hu⟩ := h
  have hmt : Tracked [] tk m := .inr (.inr hm)
  have key1 := retry_ends (B := fun e => e = .valueError ∧ len = 1) (pairs := w.pairs)
    (body := ovTakenTry T taken m si w)
    (Q := fun t => OInv P stubs zeros U0 len [] tk (Function.update pos m post) t ∧ t.eti = w.eti)
    (fun h2 => ⟨rfl, by
      obtain ⟨p, hp, -⟩ := ((hr.pos m hmt).2 si).1 (by rw [hpos]; simp)
      have := (List.getElem?_eq_some_iff.1 hp).1
      omega⟩) (fun e p1 p2 he h1 h2 => by
      have hsn := hr.tracked_stubs hmt hmk (by rw [hpos]; simp)
      have hs1 := key_stubs hr h1
      have hs2 := key_stubs hr h2
      unfold ovTakenTry
      dsimp only
      by_cases hc1 : [m.1, m.2, p1.1, p1.2, p2.1, p2.2].Nodup
      swap
      · rw [if_neg hc1]; simp
      by_cases hc : srt p1.1 p1.2 ∉ taken ∧ srt p2.1 p2.2 ∉ taken
      swap
      · rw [if_pos hc1, if_neg hc]; simp
      by_cases hz : ∀ k ∈ [srt m.1 (srt p1.1 p1.2).1, srt m.2 (srt p2.1 p2.2).1,
          srt (srt p1.1 p1.2).2 (srt p2.1 p2.2).2], k ∉ w.used
      swap
      · rw [if_pos hc1, if_pos hc, if_neg hz]; simp
      rw [if_pos hc1, if_pos hc, if_pos hz]
      obtain ⟨hc2, hc3⟩ := hc
      obtain ⟨g1, g3, g4⟩ := hr.takenSwap hm rfl hpos he h1 h2 hc1 (fun e => hc2 (hsub _ e))
        (fun e => hc3 (hsub _ e)) (fun q hq => by
          have := hz (key q) (by
            simp only [List.mem_cons, List.not_mem_nil, or_false] at hq
            rcases hq with rfl | rfl | rfl <;> simp [key])
          rw [hu.2, not_or] at this
          exact this)
      have hnk := nodup_keys (l := [m.1, m.2]) hc1
      simp only [List.cons_append, List.nil_append, List.nodup_cons, List.mem_cons, List.not_mem_nil, or_false, not_or,
        not_false_iff, List.nodup_nil, and_true] at hnk
      rw [hn.assertOnes F [srt p1.1 p1.2, srt p2.1 p2.2] (by
        simp only [List.mem_cons, List.not_mem_nil, or_false, forall_eq_or_imp, forall_eq, key_srt]
        exact ⟨g3, g4⟩)]
      dsimp only
      obtain ⟨net', e2, h3⟩ := hn.writes F [srt p1.1 p1.2, srt p2.1 p2.2] [(m.1, (srt p1.1 p1.2).1),
        (m.2, (srt p2.1 p2.2).1), ((srt p1.1 p1.2).2, (srt p2.1 p2.2).2)] (by
          simp only [key] at hnk hs1 hs2
          simp only [List.cons_append, List.nil_append, List.mem_cons, List.not_mem_nil, or_false, forall_eq_or_imp,
            forall_eq]
          tauto)
      have e3 : writes T [(srt p1.1 p1.2, 0), (srt p2.1 p2.2, 0), ((m.1, (srt p1.1 p1.2).1), 1),
        ((m.2, (srt p2.1 p2.2).1), 1), (((srt p1.1 p1.2).2, (srt p2.1 p2.2).2), 1)] w.net = .ok net' := e2
      have hne : srt p1.1 p1.2 ≠ srt p2.1 p2.2 := by
        intro e
        have : (key p1).1 = (key p2).1 := by simp only [key, e]
        exact hnk.2.2.1.2.1 this
      obtain ⟨u, e4, h4⟩ := hu.remove (D := [srt p1.1 p1.2, srt p2.1 p2.2]) (by simp [hne]) (by
        simp only [List.mem_cons, List.not_mem_nil, or_false, forall_eq_or_imp, forall_eq]
        exact ⟨g3, g4⟩) (fun q hq => hr.notUsed hq)
      simp only [e3, e4]
      refine ⟨?_, by simp⟩
      rintro t ht
      cases ht
      refine ⟨⟨_, h3, g1, by simp [hl], (h4.add _).congr fun q => ?_⟩, rfl⟩
      simp only [List.map_cons, List.map_nil, key_srt]
      simp only [key]) w.draws
  unfold ovTaken
  split
  · rename_i e he
    rw [he] at key1
    cases e with
    | raised e => exact key1
    | more => trivial
  · rename_i r draws he
    rw [he] at key1
    exact key1

theorem ovTakens_ends [NeZero (1 : W)] (F : Fills T P) {w : OWork σ α} {m : α × α} {t : List (α × α)}
    (h : OMInv P stubs zeros U0 len [] (m :: t) w) (hsub : ∀ k ∈ m :: t, k ∈ taken) (hmk : key m = m) (hmt : m ∉ t) :
    Ends (fun e => e = .valueError ∧ len = 1) (ovTakens T taken w m) (OMInv P stubs zeros U0 len [] t) := by
  obtain ⟨pos, h1, -, h2, h3⟩ := h
  have hmd : m.1 ≠ m.2 := by
    obtain ⟨lk, -, hr, -⟩ := h1
    exact (hr.tkOk m (by simp)).1
  unfold ovTakens
  rw [h2 m (by simp)]
  dsimp only
  have key1 := forS_ends (B := fun e => e = .valueError ∧ len = 1) (f := ovTaken T taken m)
    (P := fun pre w' => OInv P stubs zeros U0 len [] (m :: t) (Function.update pos m ((pos m).drop pre.length)) w' ∧
      w'.eti = w.eti)
    (pos m) (s := w)
    ⟨by rw [List.length_nil, List.drop_zero, Function.update_eq_self]; exact h1, rfl⟩ (by
      rintro pre si post w1 hl ⟨hw, he⟩
      have hd : (pos m).drop pre.length = si :: post := by rw [hl]; simp
      have hd2 : (pos m).drop (pre ++ [si]).length = post := by
        rw [hl, show pre ++ si :: post = (pre ++ [si]) ++ post by simp]
        exact List.drop_left
      rw [hd] at hw
      refine (ovTaken_ends F hw hsub (by simp) hmk (Function.update_self ..)).mono ?_
      rintro w2 ⟨r1, r2⟩
      rw [Function.update_idem] at r1
      rw [hd2]
      exact ⟨r1, r2.trans he⟩)
  refine key1.mono ?_
  rintro w1 ⟨⟨lk, a, b, c, d⟩, he⟩
  rw [List.drop_length] at b
  refine ⟨Function.update pos m [], ⟨lk, a, b.dropTk (Function.update_self ..), c, d⟩, by simp, fun k hk => ?_, fun x => ?_⟩
  · have hkm : k ≠ m := by rintro rfl; exact hmt hk
    rw [Function.update_of_ne hkm, he]
    exact h2 k (by simp [hk])
  · rw [Function.update_of_ne]
    · exact h3 x
    · rintro rfl; exact hmd rfl

end

end Pymnet
