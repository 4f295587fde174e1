import Verif.Proofs.NetIO
import Verif.Proofs.Fills

/-! The data of UCINET files. -/

set_option linter.unusedSectionVars false
set_option linter.unusedSimpArgs false

namespace Pymnet

open Py MPlex

variable {α W : Type} [DecidableEq α] [DecidableEq W] [Zero W]

/-- The entry of one field. -/
def fieldEntry (l x y : α) (w : W) : Option (α × α × α × W) := if x ≠ y ∧ w ≠ 0 then some (l, x, y, w) else none

/-- A field is read into a network: `H net es` says that the network holds the entries. -/
structure Reads {N : Type} (float : Text → Option W) (cols : List α) (field : α → α → N → Nat × Text → Except Err N)
    (H : N → List (α × α × α × W) → Prop) (levels : List α) : Prop where
  same : ∀ net c f x l, cols[c]? = some x → field x l net (c, f) = .ok net
  zero : ∀ net c f x y l, cols[c]? = some x → x ≠ y → float f = some 0 → field y l net (c, f) = .ok net
  set : ∀ net es c f x y l w, cols[c]? = some x → x ≠ y → l ∈ levels → float f = some w → w ≠ 0 → H net es →
    ∃ net', field y l net (c, f) = .ok net' ∧ H net' (es ++ [(l, x, y, w)])

section
variable {N : Type} {float : Text → Option W} {cols : List α} {field : α → α → N → Nat × Text → Except Err N}
  {H : N → List (α × α × α × W) → Prop} {levels : List α}

theorem Reads.one (hr : Reads float cols field H levels) {net : N} {es : List (α × α × α × W)} (h : H net es) {c : Nat} {f : Text}
    {x y l : α} (hl : l ∈ levels) (hx : cols[c]? = some x) {w : W} (hw : x ≠ y → float f = some w) :
    ∃ net', field y l net (c, f) = .ok net' ∧ H net' (es ++ (fieldEntry l x y w).toList) := by
  unfold fieldEntry
  by_cases hxy : x = y
  · subst hxy
    exact ⟨net, hr.same net c f x l hx, by simpa using h⟩
  · by_cases h0 : w = 0
    · subst h0
      exact ⟨net, hr.zero net c f x y l hx hxy (hw hxy), by simpa using h⟩
    · obtain ⟨net', e, h'⟩ := hr.set net es c f x y l w hx hxy hl (hw hxy) h0 h
      exact ⟨net', e, by simpa [hxy, h0] using h'⟩

theorem Reads.row (hr : Reads float cols field H levels) {y l : α} (hl : l ∈ levels) (m : Nat → W) :
    ∀ (fs : List Text) (k : Nat) (net : N) (es : List (α × α × α × W)), H net es → k + fs.length ≤ cols.length →
    (∀ i f x, fs[i]? = some f → cols[k + i]? = some x → x ≠ y → float f = some (m (k + i))) →
    ∃ net', forE (field y l) (enumFrom k fs) net = .ok net' ∧
      H net' (es ++ (List.range' k fs.length).filterMap fun c => (cols[c]?).bind fun x => fieldEntry l x y (m c)) := by
  intro fs
  induction fs with
  | nil => intro k net es h _ _; exact ⟨net, rfl, by simpa using h⟩
  | cons f fs ih =>
    intro k net es h hk hm
    simp only [List.length_cons] at hk
    have hx : cols[k]? = some cols[k] := List.getElem?_eq_getElem (by omega)
    obtain ⟨net1, e1, h1⟩ := hr.one h hl hx (y := y) (f := f) (w := m k) (fun hxy => hm 0 f _ rfl hx hxy)
    obtain ⟨net2, e2, h2⟩ := ih (k + 1) net1 _ h1 (by omega) (by
      intro i g x hg hx hxy
      have := hm (i + 1) g x (by simpa using hg) (by rw [← hx]; congr 1; omega) hxy
      rw [this]; congr 2; omega)
    refine ⟨net2, ?_, ?_⟩
    · rw [enumFrom, forE, e1]; exact e2
    · rw [List.length_cons, List.range'_succ, List.filterMap_cons]
      rw [List.append_assoc] at h2
      convert h2 using 2
      rw [hx]
      simp only [Option.bind_some]
      cases fieldEntry l cols[k] y (m k) <;> simp

/-- All rows. -/
theorem Reads.rows (hr : Reads float cols field H levels) {name : Text → α} {n nm : Nat} (hcols : cols.length = n) (embedded : Bool)
    {fld : List α → Nat → N → Nat × Text → Except Err N} {rowsN : List α} {R : List (List Text)} {M : Nat → Nat → W}
    (hlev : levels.length = nm) (hfld : ∀ rl r y l, r < n * nm → rl[r % n]? = some y → levels[r / n]? = some l →
      fld rl r = field y l)
    {rls : Nat → List α} {fs : Nat → List Text} (hR : R.length = n * nm)
    (htake : ∀ (r : Nat) row, R[r]? = some row → takeLabel name embedded (rls r) row = .ok (rls (r + 1), fs r))
    (hfs : ∀ r < n * nm, (fs r).length = n) (hrl : ∀ r < n * nm, ∃ y, (rls (r + 1))[r % n]? = some y ∧ rowsN[r % n]? = some y)
    (hM : ∀ (r c : Nat) f, r < n * nm → (fs r)[c]? = some f → cols[c]? ≠ rowsN[r % n]? → float f = some (M r c))
    {net : N} (h0 : H net []) {lines : List Text} (hlines : dataRows n [] lines = R) :
    ∃ net', readRows name n nm embedded fld (rls 0) net lines = .ok (net', rls (n * nm)) ∧
      H net' (Spec.entries cols rowsN levels n nm M) := by
  have hloop : ∀ (post : List (List Text)) (pre : List (List Text)) (net : N), R = pre ++ post →
      H net ((List.range pre.length).flatMap fun r => (List.range n).filterMap fun c =>
        match levels[r / n]?, cols[c]?, rowsN[r % n]? with
        | some l, some x, some y => if x ≠ y ∧ M r c ≠ 0 then some (l, x, y, M r c) else none
        | _, _, _ => none) →
      ∃ net', forE (dataRow name n embedded fld) post (net, rls pre.length, pre.length) = .ok (net', rls (n * nm), n * nm) ∧
        H net' (Spec.entries cols rowsN levels n nm M) := by
    intro post
    induction post with
    | nil =>
      intro pre net e h
      rw [List.append_nil] at e
      have : pre.length = n * nm := by rw [← hR, e]
      rw [this] at h ⊢
      exact ⟨net, rfl, h⟩
    | cons row post ih =>
      intro pre net e h
      have hlt : pre.length < n * nm := by
        rw [← hR, e]; simp
      have hrow : R[pre.length]? = some row := by rw [e]; simp
      obtain ⟨y, hy1, hy2⟩ := hrl _ hlt
      have hn : 0 < n := by
        rcases Nat.eq_zero_or_pos n with rfl | h
        · simp at hlt
        · exact h
      have hdiv : pre.length / n < levels.length := by
        rw [hlev]; exact Nat.div_lt_of_lt_mul hlt
      have hl : levels[pre.length / n]? = some levels[pre.length / n] := List.getElem?_eq_getElem hdiv
      obtain ⟨net1, e1, h1⟩ := hr.row (y := y) (l := levels[pre.length / n]) (List.getElem_mem hdiv) (M pre.length) (fs pre.length) 0 net
        _ h (by rw [hfs _ hlt, hcols]; omega) (by
          intro i f x hf hx hxy
          rw [Nat.zero_add] at hx ⊢
          exact hM _ i f hlt hf (by rw [hx, hy2]; simpa using hxy))
      obtain ⟨net2, e2, h2⟩ := ih (pre ++ [row]) net1 (by rw [e]; simp) (by
        rw [List.length_append, List.length_singleton, List.range_succ, List.flatMap_append]
        convert h1 using 2
        rw [List.flatMap_singleton, hfs _ hlt, List.range_eq_range']
        apply List.filterMap_congr
        intro c _
        rw [hl, hy2]
        cases hc : cols[c]? with
        | none => rfl
        | some x => rfl)
      refine ⟨net2, ?_, h2⟩
      rw [List.length_append, List.length_singleton] at e2
      rw [forE]
      have : dataRow name n embedded fld (net, rls pre.length, pre.length) row = .ok (net1, rls (pre.length + 1), pre.length + 1) := by
        unfold dataRow
        rw [htake _ _ hrow]
        simp only
        rw [if_pos (hfs _ hlt), hfld _ _ y _ hlt hy1 hl, e1]
      rw [this]
      exact e2
  obtain ⟨net', e, h⟩ := hloop R [] net rfl (by simpa using h0)
  refine ⟨net', ?_, h⟩
  unfold readRows
  rw [hlines]
  have e' : forE (dataRow name n embedded fld) R (net, rls 0, 0) = .ok (net', rls (n * nm), n * nm) := e
  rw [e']
  simp

end

theorem reads_plex (float : Text → Option W) (cols : List α) (c : Coupling α W) (al : Bool) (levels : List α) :
    Reads float cols (fun y l => plexField float cols (some y) (some l)) (fun p es => Holds p c false al es) levels := by
  refine ⟨fun net k f x l hx => ?_, fun net k f x y l hx hxy hf => ?_, fun net es k f x y l w hx hxy hl hf hw h => ?_⟩
  · simp [plexField, hx]
  · simp [plexField, hx, hxy, hf]
  · obtain ⟨p', e, h'⟩ := h.set (l := l) hxy (item := [x, y, l, l]) ⟨rfl, rfl, Or.inl rfl⟩ w
    exact ⟨p', by simp only [plexField, hx, hf]; rw [if_pos hxy, if_pos hw]; exact e, h'⟩

/-- A network without aspects holds the entries. -/
def HoldsM (l0 : α) (m : MNet α W) (es : List (α × α × α × W)) : Prop :=
  BuiltM m (nodesOf es) (Spec.lastEntry false es l0)

theorem reads_mono (float : Text → Option W) (cols : List α) (l0 : α) :
    Reads float cols (fun y (_ : α) => monoField float cols (some y)) (HoldsM l0) [l0] := by
  classical
  refine ⟨fun net k f x l hx => ?_, fun net k f x y l hx hxy hf => ?_, fun net es k f x y l w hx hxy hl hf hw h => ?_⟩
  · simp [monoField, hx]
  · simp [monoField, hx, hxy, hf]
  · obtain ⟨m', e, h'⟩ := BuiltM.set h hxy w
    have hl' : l = l0 := by simpa using hl
    subst hl'
    refine ⟨m', by simp only [monoField, hx, hf]; rw [if_pos hxy, if_pos hw]; exact e, ?_⟩
    have e1 : (fun z => nodesOf es z ∨ z = x ∨ z = y) = nodesOf (es ++ [(l, x, y, w)]) := by
      funext z
      simp [nodesOf, or_and_right, exists_or, hxy]
    have e2 : upd (Spec.lastEntry false es l) x y w = Spec.lastEntry false (es ++ [(l, x, y, w)]) l := by
      funext i j
      rw [lastEntry_snoc]
      unfold upd
      by_cases hc : (i = x ∧ j = y) ∨ (i = y ∧ j = x)
      · rw [if_pos hc, if_pos ⟨rfl, hxy, by simpa [Spec.SameLink] using hc⟩]
      · rw [if_neg hc, if_neg (fun h => hc (by simpa [Spec.SameLink] using h.2.2))]
    unfold HoldsM
    rw [← e1, ← e2]
    exact h'

/-! ### The nodes of the levels -/

theorem addNames {p : MPlex α W} {c : Coupling α W} {S LY : α → Prop} {R : List α → α → α → W} {l : α} (hl : LY l)
    (names : List α) (h : BuiltX p [c] false 0 true True S (fun _ x => LY x) (fun _ _ => False) R) :
    ∃ p', forE (fun (p : MPlex α W) x => (p.childAddNode (.el l) x).toExcept) names p = .ok p' ∧
      BuiltX p' [c] false 0 true True (fun x => S x ∨ x ∈ names) (fun _ x => LY x) (fun _ _ => False) R := by
  refine forE_ok (P := fun pre (p : MPlex α W) => BuiltX p [c] false 0 true True (fun x => S x ∨ x ∈ pre) (fun _ x => LY x)
    (fun _ _ => False) R) names (h.congr (by simp) (fun _ _ _ _ => Iff.rfl) (fun h => (nomatch h)) (fun _ _ _ _ => rfl)) ?_
  intro pre b post p' _ h'
  have hs : LYs [c].length (fun _ x => LY x) [l] := by
    refine ⟨rfl, fun k x hx => ?_⟩
    cases k with
    | zero => cases hx; exact hl
    | succ k => simp at hx
  obtain ⟨p2, e, h2⟩ := h'.intraAddNode (by simp) hs b
  exact ⟨p2, e, h2.congr (fun x => by simp [or_assoc]) (fun _ _ _ _ => Iff.rfl) (fun h => (nomatch h)) (fun _ _ _ _ => rfl)⟩

theorem addLevels {p : MPlex α W} {c : Coupling α W} {S LY : α → Prop} {R : List α → α → α → W} (cols rls levels : List α)
    (hl : ∀ l ∈ levels, LY l)
    (h : BuiltX p [c] false 0 true True S (fun _ x => LY x) (fun _ _ => False) R) :
    ∃ p', forE (addLabels cols rls) levels p = .ok p' ∧
      BuiltX p' [c] false 0 true True (fun x => S x ∨ levels ≠ [] ∧ (x ∈ cols ∨ x ∈ rls)) (fun _ x => LY x) (fun _ _ => False) R := by
  refine forE_ok (P := fun pre (p : MPlex α W) => BuiltX p [c] false 0 true True (fun x => S x ∨ pre ≠ [] ∧ (x ∈ cols ∨ x ∈ rls))
    (fun _ x => LY x) (fun _ _ => False) R) levels
    (h.congr (by simp) (fun _ _ _ _ => Iff.rfl) (fun h => (nomatch h)) (fun _ _ _ _ => rfl)) ?_
  intro pre b post p' e h'
  have hb : LY b := hl b (by rw [e]; simp)
  obtain ⟨p1, e1, h1⟩ := addNames hb cols h'
  obtain ⟨p2, e2, h2⟩ := addNames hb rls h1
  refine ⟨p2, ?_, h2.congr (fun x => ?_) (fun _ _ _ _ => Iff.rfl) (fun h => (nomatch h)) (fun _ _ _ _ => rfl)⟩
  · unfold addLabels
    rw [e1]
    exact e2
  · simp only [ne_eq, List.append_eq_nil_iff, List.cons_ne_self, and_false, not_false_eq_true, true_and]
    constructor
    · rintro ((h | h) | h)
      · rcases h with h | ⟨-, h⟩
        · exact Or.inl h
        · exact Or.inr h
      · exact Or.inr (Or.inl h)
      · exact Or.inr (Or.inr h)
    · rintro (h | h | h)
      · exact Or.inl (Or.inl (Or.inl h))
      · exact Or.inl (Or.inr h)
      · exact Or.inr h

/-! ### The data -/

variable {name : Text → α} {float : Text → Option W} {c : Coupling α W} {n nm : Nat} {cols rowsN levels : List α}
  {M : Nat → Nat → W}

theorem entries_level {e : α × α × α × W} (he : e ∈ Spec.entries cols rowsN levels n nm M) :
    e.1 ∈ levels ∧ e.2.1 ∈ cols ∧ e.2.2.1 ∈ rowsN ∧ e.2.1 ≠ e.2.2.1 ∧ e.2.2.2 ≠ 0 := by
  unfold Spec.entries at he
  obtain ⟨r, -, he⟩ := List.mem_flatMap.1 he
  obtain ⟨k, -, he⟩ := List.mem_filterMap.1 he
  split at he
  · rename_i l x y h1 h2 h3
    split at he
    · rename_i h
      obtain rfl := Option.some.inj he
      exact ⟨List.mem_of_getElem? h1, List.mem_of_getElem? h2, List.mem_of_getElem? h3, h.1, h.2⟩
    · cases he
  · cases he

/-- The data of a network with several levels. -/
theorem rows_plex (hcols : cols.length = n) (hlev : levels.length = nm) (al : Bool) (embedded : Bool)
    {R : List (List Text)} {rls : Nat → List α} {fs : Nat → List Text} (hR : R.length = n * nm)
    (htake : ∀ (r : Nat) row, R[r]? = some row → takeLabel name embedded (rls r) row = .ok (rls (r + 1), fs r))
    (hfs : ∀ r < n * nm, (fs r).length = n) (hrl : ∀ r < n * nm, ∃ y, (rls (r + 1))[r % n]? = some y ∧ rowsN[r % n]? = some y)
    (hM : ∀ (r c : Nat) f, r < n * nm → (fs r)[c]? = some f → cols[c]? ≠ rowsN[r % n]? → float f = some (M r c))
    {lines : List Text} (hlines : dataRows n [] lines = R) :
    ∃ p, readRows name n nm embedded (fun rl row => plexField float cols rl[row % n]? levels[row / n]?) (rls 0)
        (MPlex.init [c] false 0 al) lines = .ok (p, rls (n * nm)) ∧
      Holds p c false al (Spec.entries cols rowsN levels n nm M) := by
  refine (reads_plex float cols c al levels).rows hcols embedded hlev (fun rl r y l _ h1 h2 => ?_) hR htake hfs hrl hM
    (Holds.init c false al) hlines
  funext net f
  simp only [h1, h2]

/-- The data of a network with one level. -/
theorem rows_mono (hcols : cols.length = n) (l0 : α) (embedded : Bool)
    {R : List (List Text)} {rls : Nat → List α} {fs : Nat → List Text} (hR : R.length = n)
    (htake : ∀ (r : Nat) row, R[r]? = some row → takeLabel name embedded (rls r) row = .ok (rls (r + 1), fs r))
    (hfs : ∀ r < n, (fs r).length = n) (hrl : ∀ r < n, ∃ y, (rls (r + 1))[r]? = some y ∧ rowsN[r]? = some y)
    (hM : ∀ (r c : Nat) f, r < n → (fs r)[c]? = some f → cols[c]? ≠ rowsN[r]? → float f = some (M r c))
    {lines : List Text} (hlines : dataRows n [] lines = R) :
    ∃ m, readRows name n 1 embedded (fun rl row => monoField float cols rl[row]?) (rls 0) (MNet.init 0 0 false true) lines =
        .ok (m, rls n) ∧
      HoldsM l0 m (Spec.entries cols rowsN [l0] n 1 M) := by
  have h1 : n * 1 = n := Nat.mul_one n
  have := (reads_mono float cols l0).rows (name := name) (n := n) (nm := 1) (rowsN := rowsN) (M := M) (R := R) (rls := rls) (fs := fs)
    hcols embedded rfl (fld := fun rl row => monoField float cols rl[row]?) (fun rl r y l hr h2 _ => ?_) (by rw [h1]; exact hR) htake
    (by rw [h1]; exact hfs) (fun r hr => ?_) (fun r k f hr h2 h3 => ?_) (net := MNet.init 0 0 false true) ?_ hlines
  · rw [h1] at this; exact this
  · rw [h1] at hr
    rw [Nat.mod_eq_of_lt hr] at h2
    funext net f
    simp only [h2]
  · rw [h1] at hr
    rw [Nat.mod_eq_of_lt hr]
    exact hrl r hr
  · rw [h1] at hr
    rw [Nat.mod_eq_of_lt hr] at h3
    exact hM r k f hr h2 h3
  · have := BuiltM.init (α := α) (W := W)
    unfold HoldsM
    have e1 : nodesOf ([] : List (α × α × α × W)) = fun _ => False := by funext x; simp [nodesOf]
    have e2 : Spec.lastEntry false ([] : List (α × α × α × W)) l0 = fun _ _ => 0 := by funext i j; rfl
    rw [e1, e2]
    exact this

/-- The network read from the data of several levels. -/
theorem readData_plex {al : Bool} {rl : List α} {p : MPlex α W}
    (hrl : levels ≠ [] → ∀ x, x ∈ rl ↔ x ∈ rowsN) (hp : Holds p c false al (Spec.entries cols rowsN levels n nm M))
    (hent : al = true → ∀ l ∈ levels, ∃ e ∈ Spec.entries cols rowsN levels n nm M, e.1 = l) :
    ∃ q ops, (if al then
            match forE (addLabels cols rl) levels p with
            | .error e => .error e
            | .ok p => .ok (.plex p)
          else .ok (.plex p) : Except Err (UciNet α W)) = .ok (.plex q) ∧ q = afterP [c] false 0 al ops ∧
      Spec.Content false al ops
        (fun x => if al = true then levels ≠ [] ∧ (x ∈ cols ∨ x ∈ rowsN) else
          ∃ e ∈ Spec.entries cols rowsN levels n nm M, x = e.2.1 ∨ x = e.2.2.1)
        (fun s => ∃ e ∈ Spec.entries cols rowsN levels n nm M, s = e.1)
        (fun x s => if al = true then (levels ≠ [] ∧ (x ∈ cols ∨ x ∈ rowsN)) ∧ ∃ e ∈ Spec.entries cols rowsN levels n nm M, s = e.1 else
          ∃ e ∈ Spec.entries cols rowsN levels n nm M, s = e.1 ∧ (x = e.2.1 ∨ x = e.2.2.1))
        (Spec.lastEntry false (Spec.entries cols rowsN levels n nm M)) := by
  set es := Spec.entries cols rowsN levels n nm M with hes
  have hne : ∀ e ∈ es, e.2.1 ≠ e.2.2.1 := fun e he => (entries_level he).2.2.2.1
  have hn1 : ∀ x, nodesOf es x ↔ ∃ e ∈ es, x = e.2.1 ∨ x = e.2.2.1 := fun x =>
    ⟨fun ⟨e, h1, _, h2⟩ => ⟨e, h1, h2⟩, fun ⟨e, h1, h2⟩ => ⟨e, h1, hne e h1, h2⟩⟩
  have hl1 : ∀ x, layersOf es x ↔ ∃ e ∈ es, x = e.1 := fun x =>
    ⟨fun ⟨e, h1, _, h2⟩ => ⟨e, h1, h2⟩, fun ⟨e, h1, h2⟩ => ⟨e, h1, hne e h1, h2⟩⟩
  have ho1 : ∀ x s, onOf es x s ↔ ∃ e ∈ es, s = e.1 ∧ (x = e.2.1 ∨ x = e.2.2.1) := fun x s =>
    ⟨fun ⟨e, h1, _, h2⟩ => ⟨e, h1, h2⟩, fun ⟨e, h1, h2⟩ => ⟨e, h1, hne e h1, h2⟩⟩
  cases al with
  | false =>
    obtain ⟨ops, e, hc⟩ := hp.content
    refine ⟨p, ops, rfl, e, ?_⟩
    refine ⟨fun x => ?_, fun s => ?_, fun x s => ?_, hc.weight_eq, hc.noSelf⟩
    · rw [hc.nodes_iff, hn1]; simp
    · rw [hc.layers_iff, hl1]
    · rw [hc.on_iff]; simp only [Bool.false_eq_true, if_false]; exact ho1 x s
  | true =>
    have hp' : BuiltX p [c] false 0 true True (nodesOf es) (fun _ x => layersOf es x) (fun _ _ => False) (rdOf false es) :=
      BuiltX.congr hp (fun _ => Iff.rfl) (fun _ _ _ _ => Iff.rfl) (fun h => (nomatch h)) (fun _ _ _ _ => rfl)
    obtain ⟨q, e1, hq⟩ := addLevels cols rl levels (fun l hl => by
      obtain ⟨e, h1, h2⟩ := hent rfl l hl
      exact (hl1 l).2 ⟨e, h1, h2.symm⟩) hp'
    have hq' : BuiltX q [c] false 0 true True (fun x => levels ≠ [] ∧ (x ∈ cols ∨ x ∈ rowsN)) (fun _ x => layersOf es x)
        (fun n t => ∃ s, t = [s] ∧ (fun _ _ => False : α → α → Prop) n s) (rdOf false es) :=
      hq.congr (fun x => by
        constructor
        · rintro (h | ⟨h0, h⟩)
          · obtain ⟨e, h1, h2⟩ := (hn1 x).1 h
            have := entries_level h1
            refine ⟨List.ne_nil_of_mem this.1, ?_⟩
            rcases h2 with rfl | rfl
            · exact Or.inl this.2.1
            · exact Or.inr this.2.2.1
          · exact ⟨h0, h.imp id fun h => (hrl h0 x).1 h⟩
        · rintro ⟨h0, h⟩
          exact Or.inr ⟨h0, h.imp id fun h => (hrl h0 x).2 h⟩)
        (fun _ _ _ _ => Iff.rfl) (fun h => (nomatch h)) (fun _ _ _ _ => rfl)
    obtain ⟨ops, e, hc⟩ := builtX_content hq'
    refine ⟨q, ops, ?_, e, ?_⟩
    · rw [if_pos rfl, e1]
    · refine ⟨fun x => ?_, fun s => ?_, fun x s => ?_, hc.weight_eq, hc.noSelf⟩
      · rw [hc.nodes_iff, if_pos rfl]
      · rw [hc.layers_iff, hl1]
      · rw [hc.on_iff, if_pos rfl, if_pos rfl, hl1]

/-! ### The whole file -/

theorem readUcinet_plain (idx : Nat → α) (name : Text → α) (float : Text → Option W) (c : Coupling α W) (fic : Bool)
    {lines data : List Text} {n nm : Nat} {secs : List Spec.Sec} (h : Spec.UciFile lines n nm secs data) (hnr : Spec.NotRedundant secs) :
    readUcinet idx name float c fic lines = readData name float c fic n nm false (Spec.colNames idx name n secs)
      (Spec.rowNames idx name n secs) (Spec.levelNames idx name nm secs) data := by
  obtain ⟨start, blocks, d, rfl, h1, h2, h3, h4⟩ := h
  have hfuel : ∃ k, (blocks.flatten ++ d :: data).length = (k + 1) + secs.length := by
    refine ⟨(blocks.flatten ++ d :: data).length - 1 - secs.length, ?_⟩
    have := secs_length h2
    simp only [List.length_append, List.length_cons]
    omega
  obtain ⟨k, hk⟩ := hfuel
  unfold readUcinet
  rw [readSize_ok h1]
  simp only
  rw [hk, readHeader_secs h2 h3, readHeader_data _ _ h4]
  simp only
  obtain ⟨e1, e2, e3, e4, e5⟩ := foldl_add secs {}
  have e1 : (secs.foldl Header.add {}).embedded = false := e1
  have e2 : (secs.foldl Header.add {}).labels = Spec.lastOf Spec.Sec.labels? secs := e2
  have e3 : (secs.foldl Header.add {}).rlabels = Spec.lastOf Spec.Sec.rowLabels? secs := e3
  have e4 : (secs.foldl Header.add {}).clabels = Spec.lastOf Spec.Sec.colLabels? secs := e4
  have e5 : (secs.foldl Header.add {}).llabels = Spec.lastOf Spec.Sec.levelLabels? secs := e5
  rw [e1, e2, e3, e4, e5]
  rw [if_neg (by simp), if_neg (by
    rintro ⟨a, b, c⟩
    rcases hnr with h | h | h
    · rw [h] at a; cases a
    · rw [h] at b; cases b
    · rw [h] at c; cases c)]
  unfold Spec.colNames Spec.rowNames Spec.levelNames
  cases Spec.lastOf Spec.Sec.labels? secs <;> cases Spec.lastOf Spec.Sec.rowLabels? secs <;>
    cases Spec.lastOf Spec.Sec.colLabels? secs <;> cases Spec.lastOf Spec.Sec.levelLabels? secs <;> rfl

theorem readUcinet_embedded (idx : Nat → α) (name : Text → α) (float : Text → Option W) (c : Coupling α W) (fic : Bool)
    {lines data : List Text} {n nm : Nat} {secs : List Spec.Sec} (h : Spec.UciEmbedded lines n nm secs data)
    (h0 : Spec.lastOf Spec.Sec.labels? secs = none ∧ Spec.lastOf Spec.Sec.rowLabels? secs = none ∧
      Spec.lastOf Spec.Sec.colLabels? secs = none) :
    ∃ cols rows, readUcinet idx name float c fic lines = readData name float c fic n nm true cols rows
      (Spec.levelNames idx name nm secs) data := by
  obtain ⟨start, blocks, blocks', secs1, secs2, e, d, rfl, rfl, h1, h2, h2', h3, he, h4⟩ := h
  have hfuel : ∃ k, (blocks.flatten ++ e :: (blocks'.flatten ++ d :: data)).length = (((k + 1) + secs2.length) + 1) + secs1.length := by
    refine ⟨(blocks.flatten ++ e :: (blocks'.flatten ++ d :: data)).length - 1 - secs1.length - 1 - secs2.length, ?_⟩
    have := secs_length h2
    have := secs_length h2'
    simp only [List.length_append, List.length_cons]
    omega
  obtain ⟨k, hk⟩ := hfuel
  refine ⟨(List.range n).map idx, (List.range n).map idx, ?_⟩
  unfold readUcinet
  rw [readSize_ok h1]
  simp only
  rw [hk, readHeader_secs h2 fun s hs => h3 s (by simp [hs]), readHeader_embedded _ _ he,
    readHeader_secs h2' fun s hs => h3 s (by simp [hs]), readHeader_data _ _ h4]
  simp only
  obtain ⟨e1, e2, e3, e4, e5⟩ := foldl_add secs2 { secs1.foldl Header.add {} with embedded := true }
  obtain ⟨f1, f2, f3, f4, f5⟩ := foldl_add secs1 {}
  set H := secs2.foldl Header.add { secs1.foldl Header.add {} with embedded := true }
  have e1 : H.embedded = true := e1
  have e2 : H.labels = Spec.lastOf Spec.Sec.labels? (secs1 ++ secs2) := by
    rw [e2]; simp only [f2]; rw [← List.foldl_append]; rfl
  have e3 : H.rlabels = Spec.lastOf Spec.Sec.rowLabels? (secs1 ++ secs2) := by
    rw [e3]; simp only [f3]; rw [← List.foldl_append]; rfl
  have e4 : H.clabels = Spec.lastOf Spec.Sec.colLabels? (secs1 ++ secs2) := by
    rw [e4]; simp only [f4]; rw [← List.foldl_append]; rfl
  have e5 : H.llabels = Spec.lastOf Spec.Sec.levelLabels? (secs1 ++ secs2) := by
    rw [e5]; simp only [f5]; rw [← List.foldl_append]; rfl
  rw [e1, e2, e3, e4, e5]
  rw [h0.1, h0.2.1, h0.2.2, if_neg (by simp), if_neg (by simp)]
  unfold Spec.levelNames
  cases Spec.lastOf Spec.Sec.levelLabels? (secs1 ++ secs2) <;> rfl

end Pymnet
