import Verif.Model.Gcd
import Mathlib.Algebra.BigOperators.Group.List.Basic
import Mathlib.Algebra.Order.Field.Basic

/-!
Model of `GCM` of `/repo/pymnet/graphlets/graphlet_measures.py` (208-225), with what it uses of pandas (`DataFrame.shape`,
assignment to `DataFrame.loc`) and of `scipy.stats.spearmanr` (ranks and `numpy.corrcoef`). Numbers are exact; `sqrt` is a
parameter; `nan` is `none`. The probabilities that `spearmanr` also returns are not modelled.
-/

namespace Pymnet

open Py

/-- A pandas data frame: labelled rows with `cols` entries. -/
structure Frame (β K : Type) where
  rows : List (β × List K)
  cols : Nat
  rect : ∀ r ∈ rows, r.2.length = cols

variable {β K : Type} [DecidableEq β]

/-- the rows of the frame after `frame.loc[label]=values`: rows with this label are replaced, otherwise a row is added. -/
def locSet (rows : List (β × List K)) (label : β) (values : List K) : List (β × List K) :=
  if label ∈ rows.map Prod.fst then rows.map fun r => if r.1 = label then (label, values) else r
  else rows ++ [(label, values)]

/-- `orbits.loc[n_rows]=[1]*n_cols` (graphlet_measures.py 218-220); `idx` is the Python integer. -/
def Frame.addDummy [One K] (idx : Nat → β) (f : Frame β K) : Frame β K where
  rows := locSet f.rows (idx f.rows.length) (List.replicate f.cols 1)
  cols := f.cols
  rect := by
    intro r hr
    unfold locSet at hr
    split at hr
    · obtain ⟨s, hs, rfl⟩ := List.mem_map.1 hr
      split
      · simp
      · exact f.rect s hs
    · rcases List.mem_append.1 hr with hr | hr
      · exact f.rect r hr
      · rw [List.mem_singleton.1 hr]; simp

section spearman

variable [Field K] [LinearOrder K]

/-- column `j` of an array given by its rows. -/
def colOf (rows : List (List K)) (j : Nat) : List K := rows.map fun r => r.getD j 0

/-- `scipy.stats.rankdata`: a value gets the average of the positions that it and the values equal to it have in the sorted
list. -/
def rankdata (l : List K) : List K := l.map fun x => (l.countP (fun y => y < x) : K) + ((l.countP (fun y => y = x) : K) + 1) / 2

/-- the mean. -/
def meanOf (l : List K) : K := l.sum / l.length

/-- an entry of `numpy.cov`. -/
def covOf (x y : List K) : K := ((List.zipWith (fun a b => (a - meanOf x) * (b - meanOf y)) x y).sum) / ((x.length : K) - 1)

/-- an entry of `numpy.corrcoef`: the covariance divided by both standard deviations, and clipped. -/
def corrOf (sqrt : K → K) (x y : List K) : Option K :=
  if covOf x x = 0 ∨ covOf y y = 0 then none
  else some (max (-1) (min 1 (covOf x y / sqrt (covOf x x) / sqrt (covOf y y))))

/-- `(c[0]==c).all()`. -/
def constCol (c : List K) : Bool :=
  match c with
  | [] => true
  | x :: _ => c.all fun y => decide (x = y)

/-- `scipy.stats.spearmanr(a,axis=0)[0]`: a number or a matrix. It is `nan` with at most one row or if one of the first
two columns is constant, and a number with two columns. -/
def spearmanr (sqrt : K → K) (rows : List (List K)) (cols : Nat) : Except Err (Option K ⊕ List (List (Option K))) :=
  if rows.length ≤ 1 then .ok (.inl none)
  else if cols = 0 then .error .indexError
  else if constCol (colOf rows 0) then .ok (.inl none)
  else if cols = 1 then .error .indexError
  else if constCol (colOf rows 1) then .ok (.inl none)
  else
    let ranks := (List.range cols).map fun j => rankdata (colOf rows j)
    let m := ranks.map fun x => ranks.map fun y => corrOf sqrt x y
    if cols = 2 then .ok (.inl (corrOf sqrt (rankdata (colOf rows 1)) (rankdata (colOf rows 0)))) else .ok (.inr m)

/-- `GCM` (graphlet_measures.py 208-225): what it returns, and the data frame of the caller afterwards. -/
def gcm (sqrt : K → K) (idx : Nat → β) (f : Frame β K) : Except Err (Option K ⊕ List (List (Option K))) × Frame β K :=
  (spearmanr sqrt ((f.addDummy idx).rows.map Prod.snd) f.cols, f.addDummy idx)

end spearman

end Pymnet
