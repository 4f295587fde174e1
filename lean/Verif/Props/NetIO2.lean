import Verif.Props.NetIO

/-! C101: files with too few or too many rows are refused. -/

set_option linter.unusedSectionVars false
set_option linter.unusedSimpArgs false

namespace Pymnet

open Py MPlex

variable {α W : Type} [DecidableEq α] [DecidableEq W] [Zero W]
  {idx : Nat → α} {name : Text → α} {float : Text → Option W} {lines data : List Text} {n nm : Nat} {secs : List Spec.Sec}
  {R : List (List Text)}

/-- Internal: the rows are counted. -/
theorem dataRow_count {N : Type} {embedded : Bool} {field : List α → Nat → N → Nat × Text → Except Err N} :
    ∀ (R : List (List Text)) (s s' : RowState N α), forE (dataRow name n embedded field) R s = .ok s' → s'.2.2 = s.2.2 + R.length
  | [], s, s', h => by cases h; rfl
  | row :: R, s, s', h => by
    rw [forE] at h
    cases h1 : dataRow name n embedded field s row with
    | error e => rw [h1] at h; cases h
    | ok s1 =>
      rw [h1] at h
      have := dataRow_count R s1 s' h
      unfold dataRow at h1
      split at h1
      · cases h1
      · split at h1
        · split at h1
          · cases h1
          · cases h1
            rw [this, List.length_cons]
            simp only
            omega
        · cases h1

theorem readRows_count {N : Type} {embedded : Bool} {field : List α → Nat → N → Nat × Text → Except Err N} {rl : List α} {net : N}
    (hlines : dataRows n [] data = R) (hne : R.length ≠ n * nm) (u : N × List α) :
    readRows name n nm embedded field rl net data ≠ .ok u := by
  intro h
  unfold readRows at h
  rw [hlines] at h
  split at h
  · cases h
  · rename_i s hs
    have := dataRow_count _ _ _ hs
    simp only [Nat.zero_add] at this
    rw [if_neg (by rw [this]; exact hne)] at h
    cases h

theorem readData_count {c : Coupling α W} {fic : Bool} {cols rows levels : List α} (hlines : dataRows n [] data = R)
    (hne : R.length ≠ n * nm) (u : UciNet α W) : readData name float c fic n nm false cols rows levels data ≠ .ok u := by
  intro h
  unfold readData at h
  simp only [Bool.false_eq_true, if_false] at h
  split at h
  · split at h
    · split at h
      · cases h
      · rename_i hr
        exact readRows_count hlines hne _ hr
    · split at h
      · cases h
      · rename_i hr
        exact readRows_count hlines hne _ hr
  · cases h

theorem readData_count_embedded {c : Coupling α W} {fic : Bool} {cols rows levels : List α} {head : Text} (hlines : dataRows n [] data = R)
    (hne : R.length ≠ n * nm) (u : UciNet α W) : readData name float c fic n nm true cols rows levels (head :: data) ≠ .ok u := by
  intro h
  unfold readData at h
  simp only [if_true] at h
  split at h
  · split at h
    · split at h
      · cases h
      · rename_i hr
        exact readRows_count hlines hne _ hr
    · split at h
      · cases h
      · rename_i hr
        exact readRows_count hlines hne _ hr
  · cases h

/-- **C101, wrong number of rows.** No network is returned for a file that does not have `n` rows for every level. -/
theorem C101_row_number (h : Spec.UciFile lines n nm secs data) (hnr : Spec.NotRedundant secs) (hrows : Spec.Rows n 0 data R)
    (hne : R.length ≠ n * nm) (c : Coupling α W) (fic : Bool) (u : UciNet α W) : readUcinet idx name float c fic lines ≠ .ok u := by
  rw [readUcinet_plain idx name float c fic h hnr]
  exact readData_count (dataRows_rows hrows) hne u

/-- **C101, wrong number of rows**, with embedded labels. -/
theorem C101_row_number_embedded {head : Text} (h : Spec.UciEmbedded lines n nm secs (head :: data))
    (h0 : Spec.lastOf Spec.Sec.labels? secs = none ∧ Spec.lastOf Spec.Sec.rowLabels? secs = none ∧
      Spec.lastOf Spec.Sec.colLabels? secs = none) (hrows : Spec.Rows n 1 data R) (hne : R.length ≠ n * nm)
    (c : Coupling α W) (fic : Bool) (u : UciNet α W) : readUcinet idx name float c fic lines ≠ .ok u := by
  obtain ⟨cs, rs, e⟩ := readUcinet_embedded idx name float c fic h h0
  rw [e]
  exact readData_count_embedded (dataRows_rows hrows) hne u

/-- a file with two rows for three nodes -/
example : (readUcinet (fun n => [Char.ofNat n]) id digits (.categorical (1 : Int)) true ["DL N=3".toList, "data:".toList,
    "0 1 0".toList, "1 0 0".toList]).map UciNet.seen = .error .assertionError := by decide +kernel

example : Spec.Rows 3 0 ["0 1 0".toList, "1 0 0".toList] [["0".toList, "1".toList, "0".toList], ["1".toList, "0".toList, "0".toList]] := by
  have one : ∀ (t : Text) (ws : List Text) {rest : List Text} {rows : List (List Text)}, Text.words t = ws → ws.length = 3 →
      Spec.Rows 3 0 rest rows → Spec.Rows 3 0 (t :: rest) (ws :: rows) := by
    intro t ws rest rows h1 h2 h3
    have := Spec.Rows.row (block := [t]) (fields := [ws]) (by simp) (.cons (h1 ▸ fields_words t) .nil) (by simpa using h2) (Or.inr rfl) h3
    simpa using this
  exact one _ _ (by decide +kernel) rfl (one _ _ (by decide +kernel) rfl (.nil (by simp) (by simp)))

end Pymnet
