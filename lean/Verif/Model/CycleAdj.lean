import Verif.Model.Cycles

/-!
Model of the versions of the cycle counts and clustering coefficients of multiplex networks that multiply
supra-adjacency matrices (`/repo/pymnet/cc.py` 629-755, 1127-1212). A square `numpy.matrix` is the list of its rows;
its entries are elements of a field instead of floating point numbers. Not modelled: numpy's warnings; overflow.
-/

namespace Pymnet

open Py

/-- A square `numpy.matrix`: the rows. -/
abbrev Mat (K : Type) := List (List K)

namespace Mat

variable {K : Type} [Field K]

/-- `x*y` of numpy matrices; `ValueError` if the sizes differ. -/
def mul (x y : Mat K) : Except Err (Mat K) :=
  if x.length ≠ y.length then .error .valueError
  else .ok (x.map fun row => (List.range y.length).map fun j => ((row.zip y).map fun e => e.1 * e.2.getD j 0).sum)

/-- entry by entry operations; `ValueError` if the sizes differ. Broadcasting is not modelled: where the functions below
add or subtract, both operands have the size of the network. -/
def zip (f : K → K → K) (x y : Mat K) : Except Err (Mat K) :=
  if x.length ≠ y.length then .error .valueError else .ok (List.zipWith (List.zipWith f) x y)

/-- `numpy.eye(n)` -/
def eye (n : Nat) : Mat K := (List.range n).map fun i => (List.range n).map fun j => if i = j then 1 else 0

/-- `x*y*z*...`, from left to right -/
def prod : List (Mat K) → Except Err (Mat K)
  | [] => .error .typeError
  | x :: xs => forE mul xs x

/-- `x+y+...` for products `x`, `y`, ... -/
def sumProd : List (List (Mat K)) → Except Err (Mat K)
  | [] => .error .typeError
  | w :: ws => do
    let x ← prod w
    forE (fun s w => do
      let y ← prod w
      zip (· + ·) s y) ws x

/-- `x[i,j]` -/
def entry (x : Mat K) (i j : Nat) : Except Err K :=
  match x[i]? with
  | none => .error .indexError
  | some row => match row[j]? with
    | none => .error .indexError
    | some e => .ok e

/-- `[x[i,i] for i in range(len(x))]` (cc.py 684-690) -/
def diagonal (x : Mat K) : Except Err (List K) := mapE (fun i => x.entry i i) (List.range x.length)

/-- the entries `x[i,j]`, `i!=j`, summed row by row (cc.py 1133-1137) -/
def offDiagonal (x : Mat K) : Except Err K :=
  forE (fun s i => forE (fun s j =>
    if i ≠ j then do
      let e ← x.entry i j
      pure (s + e)
    else pure s) (List.range x.length) s) (List.range x.length) 0

/-- `(x*y*...)[i,i]` -/
def closed (i : Nat) (ws : List (Mat K)) : Except Err K := do
  let x ← prod ws
  x.entry i i

end Mat

/-- `assert` -/
def assertE (b : Bool) : Except Err Unit := if b then .ok () else .error .assertionError

namespace MPlex

variable {α K : Type} [DecidableEq α] [IntNames α] [LinearOrder α] [DecidableEq K] [Field K]

/-- `get_full_multiplex_network` (cc.py 1163-1170). -/
def fullNetwork (nodes layers : List α) : Except Err (MPlex α K) :=
  forE (fun p l => forE (fun p a => forE (fun p b =>
      if a ≠ b then (p.setItem [a, b, l, l] 1).toExcept else .ok p) nodes p) nodes p)
    layers (MPlex.init [.categorical 1] false 0 true)

/-- the matrices `f` of all links within layers (cc.py 665-666, 698-699, 1187-1188). -/
def fullMatrix (p : MPlex α K) : Except Err (Mat K) :=
  match p.slices[0]?, p.slices[1]? with
  | some nodes, some layers => do
    let fn ← (fullNetwork nodes layers : Except Err (MPlex α K))
    let r ← fn.view.supra false
    pure r.1
  | _, _ => .error .indexError

/-- `len(net.slices[1])` -/
def layerCount (p : MPlex α K) : Except Err Nat :=
  match p.slices[1]? with
  | some layers => .ok layers.length
  | none => .error .indexError

/-- the assertions on fully interconnected networks (cc.py 674-678). -/
def checkFull (p : MPlex α K) (afa afcac acfac acfca acfcac : K) : Except Err Unit := do
  let b ← p.layerCount
  if p.fic then
    assertE (afcac = acfac)
    assertE (((b : K) - 1) * afa = acfca)
    assertE (acfcac = ((b : K) - 2) * afcac)

/-- the products of `cc_cycle_vector_adj` and its assertions on them (cc.py 642-680). -/
def cycleProducts (p : MPlex α K) (a c ch : Mat K) (node : Nat) : Except Err (List K) := do
  let aaa ← Mat.closed node [a, a, a]
  let aacac ← Mat.closed node [a, a, c, a, c]
  let acaac ← Mat.closed node [a, c, a, a, c]
  let acaca ← Mat.closed node [a, c, a, c, a]
  let acacac ← Mat.closed node [a, c, a, c, a, c]
  let cacaa ← Mat.closed node [c, a, c, a, a]
  let caaca ← Mat.closed node [c, a, a, c, a]
  let cacaca ← Mat.closed node [c, a, c, a, c, a]
  assertE (aacac = cacaa)
  assertE (acaac = caaca)
  assertE (acacac = cacaca)
  let ach3 ← Mat.closed node [a, ch, a, ch, a, ch]
  assertE (aaa + aacac + acaac + acaca + acacac = ach3)
  let f ← p.fullMatrix
  let afa ← Mat.closed node [a, f, a]
  let afcac ← Mat.closed node [a, f, c, a, c]
  let acfac ← Mat.closed node [a, c, f, a, c]
  let acfca ← Mat.closed node [a, c, f, c, a]
  let acfcac ← Mat.closed node [a, c, f, c, a, c]
  p.checkFull afa afcac acfac acfca acfcac
  pure [aaa, aacac, acaac, acaca, acacac, afa, afcac, acfac, acfca, acfcac]

/-- `cc_cycle_vector_adj` (cc.py 629-680). The coupling replaced at 634 is put back at 636, before any assertion; reading
with a categorical coupling raises nothing that reading with the coupling itself has not raised before. -/
def cycleVectorAdj (p : MPlex α K) (node layer : α) : Except Err (List K) := do
  let r1 ← p.view.supra true
  match p.couplings with
  | [] => .error .indexError
  | _ :: cs =>
    let r2 ← ({ p with couplings := .categorical 0 :: cs } : MPlex α K).view.supra true
    let r3 ← p.view.supra false
    assertE (r2.1 = r3.1)
    assertE (r1.2 = r2.2)
    let c ← Mat.zip (· - ·) r1.1 r2.1
    let ch ← Mat.zip (· + ·) c (Mat.eye c.length)
    match r1.2.idxOf? [node, layer] with
    | none => .error .valueError
    | some i => p.cycleProducts r2.1 c ch i

/-- the matrices `a` and `c` (cc.py 694-696, 1143-1145, 1183-1185). -/
def matricesAC (p : MPlex α K) : Except Err (Mat K × Mat K) := do
  let r1 ← p.view.supra true
  let r2 ← p.view.supra false
  let c ← Mat.zip (· - ·) r1.1 r2.1
  pure (r2.1, c)

/-- The six lists returned by `gcc_aw_vector_adj`. -/
structure AwLists (K : Type) where
  nom1 : List K
  den1 : List K
  nom2 : List K
  den2 : List K
  nom3 : List K
  den3 : List K

/-- `gcc_aw_vector_adj` (cc.py 682-717). -/
def awVectorAdj (p : MPlex α K) : Except Err (AwLists K) := do
  let (a, c) ← p.matricesAC
  let f ← p.fullMatrix
  let aaa ← Mat.prod [a, a, a]
  let afa ← Mat.prod [a, f, a]
  let n1 ← aaa.diagonal
  let d1 ← afa.diagonal
  let p21 ← Mat.sumProd [[a, a, c, a, c], [a, c, a, a, c], [a, c, a, c, a]]
  let ph21 ← Mat.sumProd [[a, f, c, a, c], [a, c, f, a, c], [a, c, f, c, a]]
  let n2 ← p21.diagonal
  let d2 ← ph21.diagonal
  let p111 ← Mat.prod [a, c, a, c, a, c]
  let ph111 ← Mat.prod [a, c, f, c, a, c]
  let n3 ← p111.diagonal
  let d3 ← ph111.diagonal
  pure ⟨n1, d1, n2, d2, n3, d3⟩

/-- `sum(nom)/float(sum(den))` or 0 (cc.py 735-747). -/
def sumRatio (nom den : List K) : K := if den.sum ≠ 0 then nom.sum / den.sum else 0

/-- `gcc_aw_seplayers_adj` (cc.py 733-753): a number, or three of them. -/
def gccAwSeplayersAdj (p : MPlex α K) (w1 w2 w3 : K) (returnCVector : Bool) : Except Err (K ⊕ K × K × K) := do
  let v ← p.awVectorAdj
  let c1 := sumRatio v.nom1 v.den1
  let c2 := sumRatio v.nom2 v.den2
  let b ← p.layerCount
  if b = 2 then pure (.inl (w1 * c1 + w2 * c2))
  else
    let c3 := sumRatio v.nom3 v.den3
    if returnCVector then pure (.inr (c1, c2, c3)) else pure (.inl (w1 * c1 + w2 * c2 + w3 * c3))

/-- `nom/float(den)` where `nom` is a `numpy.float64`, or, if the matrices are empty, the number `0.0`. `none` is `nan` or
an infinity. -/
def npDiv (empty : Bool) (nom den : K) : Except Err (Option K) :=
  if den = 0 then (if empty then .error .zeroDivisionError else .ok none) else .ok (some (nom / den))

/-- `gcc_vector_moreno` (cc.py 1127-1157). -/
def vectorMoreno (p : MPlex α K) : Except Err (Option K × Option K × Option K) := do
  let (a, c) ← p.matricesAC
  let aaa ← Mat.prod [a, a, a]
  let aa ← Mat.prod [a, a]
  let n1 ← aaa.diagonal
  let d1 ← aa.offDiagonal
  let p21 ← Mat.sumProd [[a, a, c, a, c], [c, a, c, a, a], [a, c, a, a, c], [c, a, a, c, a], [a, c, a, c, a]]
  let ph21 ← Mat.sumProd [[a, a, c], [c, a, c, a], [a, c, a], [c, a, a, c], [a, c, a, c]]
  let n2 ← p21.diagonal
  let d2 ← ph21.offDiagonal
  let p111 ← Mat.sumProd [[a, c, a, c, a, c], [c, a, c, a, c, a]]
  let ph111 ← Mat.sumProd [[a, c, a, c], [c, a, c, a, c]]
  let n3 ← p111.diagonal
  let d3 ← ph111.offDiagonal
  let c1 ← npDiv a.isEmpty n1.sum d1
  let c2 ← npDiv a.isEmpty n2.sum d2
  let c3 ← npDiv a.isEmpty n3.sum d3
  pure (c1, c2, c3)

/-- a weighted sum of numbers that may be `nan` or infinite -/
def npSum : List (K × Option K) → Option K
  | [] => some 0
  | (w, c) :: t => do
    let c ← c
    let s ← npSum t
    pure (w * c + s)

/-- `gcc_moreno` (cc.py 1159-1161). -/
def gccMorenoAdj (p : MPlex α K) (w1 w2 w3 : K) : Except Err (Option K) := do
  let (c1, c2, c3) ← p.vectorMoreno
  pure (npSum [(w1, c1), (w2, c2), (w3, c3)])

/-- `gcc_vector_moreno2` (cc.py 1172-1206). -/
def vectorMoreno2 (p : MPlex α K) : Except Err (Option K × Option K × Option K) := do
  let (a, c) ← p.matricesAC
  let f ← p.fullMatrix
  let aaa ← Mat.prod [a, a, a]
  let afa ← Mat.prod [a, f, a]
  let n1 ← aaa.diagonal
  let d1 ← afa.diagonal
  let p21 ← Mat.sumProd [[a, a, c, a, c], [c, a, c, a, a], [a, c, a, a, c], [c, a, a, c, a], [a, c, a, c, a]]
  let ph21 ← Mat.sumProd [[a, f, c, a, c], [c, a, c, f, a], [a, c, f, a, c], [c, a, f, c, a], [a, c, f, c, a]]
  let n2 ← p21.diagonal
  let d2 ← ph21.diagonal
  let p111 ← Mat.sumProd [[a, c, a, c, a, c], [c, a, c, a, c, a]]
  let ph111 ← Mat.sumProd [[a, c, f, c, a, c], [c, a, c, f, c, a]]
  let n3 ← p111.diagonal
  let d3 ← ph111.diagonal
  let c1 ← npDiv a.isEmpty n1.sum d1.sum
  let c2 ← npDiv a.isEmpty n2.sum d2.sum
  if d3.sum ≠ 0 then
    let c3 ← npDiv a.isEmpty n3.sum d3.sum
    pure (c1, c2, c3)
  else pure (c1, c2, some 0)

/-- `gcc_moreno2` (cc.py 1208-1212). -/
def gccMoreno2Adj (p : MPlex α K) (w1 w2 w3 : K) : Except Err (Option K) := do
  let (c1, c2, c3) ← p.vectorMoreno2
  let b ← p.layerCount
  if b = 2 then pure (npSum [(w1, c1), (w2, c2)])
  else pure (npSum [(w1, c1), (w2, c2), (w3, c3)])

end MPlex

end Pymnet
