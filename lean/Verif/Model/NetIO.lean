import Verif.Model.Diagnostics
import Verif.Model.Plex
import Verif.Model.Transforms

/-!
Model of netio.py: reading and writing files.

A text is a list of characters, a file an iterable of lines. Only ASCII white space, letters and digits are white space,
letters and digits here. `int` and `float` of a text are parameters (`none` is a `ValueError`), and so is the name that
a label or an integer is as a node or layer. `str` of a name or weight is a parameter.
-/

namespace Pymnet

open Py

/-- A Python string. -/
abbrev Text := List Char

namespace Text

/-- White space of `str.split`, `str.strip` (ASCII). -/
def isSpace (c : Char) : Bool := c = ' ' || c = '\t' || c = '\n' || c = '\r' || c = '\x0b' || c = '\x0c'

/-- `str.split()`: the maximal pieces without white space; `cur` is the piece being read. -/
def wordsFrom : Text → Text → List Text
  | cur, [] => if cur = [] then [] else [cur]
  | cur, c :: t =>
    if isSpace c then (if cur = [] then wordsFrom [] t else cur :: wordsFrom [] t) else wordsFrom (cur ++ [c]) t

/-- `str.split()`. -/
def words (t : Text) : List Text := wordsFrom [] t

/-- `str.split(sep)` for a single character. -/
def splitOn (sep : Char) : Text → List Text
  | [] => [[]]
  | c :: t =>
    if c = sep then [] :: splitOn sep t
    else
      match splitOn sep t with
      | [] => [[c]]
      | w :: ws => (c :: w) :: ws

/-- `str.lstrip()`. -/
def lstrip (t : Text) : Text := t.dropWhile isSpace

/-- `str.strip()`. -/
def strip (t : Text) : Text := ((t.dropWhile isSpace).reverse.dropWhile isSpace).reverse

/-- `str.lower()` (ASCII). -/
def lower (t : Text) : Text := t.map Char.toLower

/-- `str.startswith(p)`. -/
def startsWith (t p : Text) : Bool := p.isPrefixOf t

/-- `str.isdigit()` (ASCII). -/
def isDigits (t : Text) : Bool := !t.isEmpty && t.all Char.isDigit

/-- `int` of a text of digits. -/
def toNat (t : Text) : Nat := t.foldl (fun n c => 10 * n + (c.toNat - '0'.toNat)) 0

end Text

open Text

variable {α W : Type} [DecidableEq α] [DecidableEq W]

/-! ### `read_edge_files` -/

/-- The body of the loop of `read_edge_files` (netio.py 54-58). -/
def readEdgeLine [Zero W] (int : Text → Option α) (float : Text → Option W) (ignoreSelf : Bool) (net : MPlex α W)
    (line : Text) : Except Err (MPlex α W) :=
  match words line with
  | [li, fi, ti, w] =>
    match int li, int fi, int ti, float w with
    | some l, some f, some t, some w =>
      if f ≠ t ∨ ignoreSelf = false then (net.setItem [f, t, l] w).toExcept else .ok net
    | _, _, _, _ => .error .valueError
  | _ => .error .valueError

/-- `read_edge_files` (netio.py 46-59). The layer and node files are opened, but not read. The coupling is already
normalised by the constructor. -/
def readEdgeFiles [Zero W] (int : Text → Option α) (float : Text → Option W) (edges : List Text)
    (_layers _nodes : Option (List Text)) (c : Coupling α W) (fic directed ignoreSelf : Bool) : Except Err (MPlex α W) :=
  forE (readEdgeLine int float ignoreSelf) edges (MPlex.init [c] directed 0 fic)

/-! ### `write_json` -/

/-- What `write_json` passes to `json.dump`: the names of the nodes, the names of the layers, and the links as source,
target, value and layer. -/
structure JsonNet (α W : Type) where
  nodes : List α
  layers : List (LKey α)
  links : List (Nat × Nat × W × Nat)
  deriving DecidableEq

/-- The dict from names to positions (netio.py 19-21, 25-27): a later name overwrites an equal earlier one. -/
def indexDict {β : Type} [DecidableEq β] : List β → Nat → Dict β Nat → Dict β Nat
  | [], _, d => d
  | x :: t, i, d => indexDict t (i + 1) (Dict.set d x i)

/-- The entry of one link (netio.py 32-35). -/
def jsonLink (node2index : Dict α Nat) (l : Nat) (e : List α × W) : Except Err (List (Nat × Nat × W × Nat)) :=
  match e.1 with
  | a :: b :: _ =>
    match Dict.get node2index a, Dict.get node2index b with
    | some i, some j => .ok [(i, j, e.2, l)]
    | _, _ => .error .keyError
  | _ => .error .indexError

/-- The entries of the links of a layer (netio.py 31-35). `layer2index[layer]` is looked up for each link. -/
def jsonLayer (p : MPlex α W) (node2index : Dict α Nat) (layer2index : Dict (LKey α) Nat) (L : LKey α) :
    Except Err (List (Nat × Nat × W × Nat)) :=
  match p.child? L with
  | none => .error .keyError
  | some c =>
    match c.view.edges with
    | .error e => .error e
    | .ok es =>
      View.collect (fun e =>
        match Dict.get layer2index L with
        | none => .error .keyError
        | some l => jsonLink node2index l e) es

/-- `write_json` (netio.py 11-44): the structure that is written. -/
def writeJson (p : MPlex α W) : Except Err (JsonNet α W) :=
  if p.aspects = 0 ∨ p.aspects = 1 then
    match p.iterNodes none with
    | .error e => .error e
    | .ok nodes =>
      match View.collect (jsonLayer p (indexDict nodes 0 []) (indexDict p.iterLayers 0 [])) p.iterLayers with
      | .error e => .error e
      | .ok links => .ok ⟨nodes, p.iterLayers, links⟩
  else .error .assertionError

/-! ### `write_edge_files` -/

/-- The line written for one link (netio.py 79-86); `node` is `str` of the node, or of its number. -/
def edgeRow (node : α → Option Text) (strW : W → Text) (csep rsep : Text) (weights : Bool) (e : List α × W) :
    Except Err (List Text) :=
  match e.1 with
  | a :: b :: _ =>
    match node a, node b with
    | some x, some y => .ok [x ++ csep ++ y ++ (if weights then csep ++ strW e.2 else []) ++ rsep]
    | _, _ => .error .keyError
  | _ => .error .indexError

/-- Write the file of one layer (netio.py 74-87): opening it for writing empties it. -/
def writeLayer (p : MPlex α W) (node : α → Option Text) (strL : LKey α → Text) (strW : W → Text) (out csep rsep : Text)
    (weights : Bool) (files : Dict Text Text) (L : LKey α) : Except Err (Dict Text Text) :=
  match p.child? L with
  | none => .error .keyError
  | some c =>
    match c.view.edges with
    | .error e => .error e
    | .ok es =>
      match View.collect (edgeRow node strW csep rsep weights) es with
      | .error e => .error e
      | .ok rows => .ok (Dict.set files (out ++ strL L ++ ".edg".toList) rows.flatten)

/-- `os.path.basename`: the part after the last slash. -/
def basename (t : Text) : Text := (t.reverse.takeWhile (· ≠ '/')).reverse

/-- `write_edge_files` (netio.py 63-88) for a network with one aspect: the files that are written, with their content.
The content of a file whose writing is interrupted by an exception is not modelled. -/
def writeEdgeFiles (p : MPlex α W) (strN : α → Text) (strNat : Nat → Text) (strL : LKey α → Text) (strW : W → Text)
    (out csep rsep : Text) (weights master numeric : Bool) : Except Err (Dict Text Text) :=
  if p.aspects = 1 then
    match p.iterNodes none with
    | .error e => .error e
    | .ok nodes =>
      let node : α → Option Text :=
        if numeric then fun n => (Dict.get (indexDict nodes 0 []) n).map strNat else fun n => some (strN n)
      match forE (writeLayer p node strL strW out csep rsep weights) p.iterLayers [] with
      | .error e => .error e
      | .ok files =>
        if master then
          .ok (Dict.set files (out ++ ".txt".toList)
            (p.iterLayers.map fun L => basename (out ++ strL L ++ ".edg".toList) ++ ";".toList ++ strL L ++ ";\n".toList).flatten)
        else .ok files
  else .error .assertionError

/-! ### `read_ucinet` -/

/-- `read_labels` (netio.py 122-135): the labels, and the lines that are left. -/
def readLabels (length : Nat) : Nat → List Text → Except Err (List Text × List Text)
  | k, [] => if k < length then .error .exception else .ok ([], [])
  | k, line :: rest =>
    if k < length then
      match readLabels length (k + (splitOn ',' line).length) rest with
      | .error e => .error e
      | .ok (ls, rest') => .ok ((splitOn ',' line).map strip ++ ls, rest')
    else .ok ([], line :: rest)

/-- The checks at the end of `parse_size` (netio.py 166-172). -/
def checkSize (nchar nval mchar mval : Text) : Except Err (Nat × Nat) :=
  if lower (strip nchar) = "n".toList ∧ lower (strip mchar) = "nm".toList ∧ isDigits (strip nval) = true ∧
      isDigits (strip mval) = true then .ok (toNat (strip nval), toNat (strip mval))
  else .error .assertionError

/-- `parse_size` (netio.py 150-172). -/
def parseSize (line : Text) : Except Err (Nat × Nat) :=
  match splitOn '=' line with
  | [nchar, nval] => checkSize nchar nval "nm".toList "1".toList
  | [nchar, mid, mval] =>
    match words mid with
    | [nval, mchar] => checkSize nchar nval mchar mval
    | _ => .error .exception
  | _ => .error .exception

/-- Reading the size (netio.py 174-185): the number of nodes and of levels, and the lines that are left. -/
def readSize : List Text → Except Err ((Nat × Nat) × List Text)
  | [] => .error .exception
  | line :: rest =>
    if startsWith (lower line) "dl".toList then
      if strip (line.drop 2) = [] then
        match rest with
        | [] => .error .exception
        | line2 :: rest2 =>
          match parseSize line2 with
          | .error e => .error e
          | .ok s => .ok (s, rest2)
      else
        match parseSize (line.drop 2) with
        | .error e => .error e
        | .ok s => .ok (s, rest)
    else .error .assertionError

/-- The variables set by the header (netio.py 189-195). -/
structure Header where
  format : Text := "fullmatrix".toList
  labels : Option (List Text) := none
  rlabels : Option (List Text) := none
  clabels : Option (List Text) := none
  llabels : Option (List Text) := none
  embedded : Bool := false
  deriving DecidableEq

/-- The loop reading the header (netio.py 197-225). The first argument bounds the number of commands: there cannot be
more of them than lines. -/
def readHeader (n nm : Nat) : Nat → Header → List Text → Except Err (Header × List Text)
  | 0, _, _ => .error .exception
  | _ + 1, _, [] => .error .exception
  | k + 1, h, line :: rest =>
    if startsWith (lower (lstrip line)) "format".toList then
      match splitOn '=' (lower (lstrip line)) with
      | [_, f] => readHeader n nm k { h with format := strip f } rest
      | _ => .error .exception
    else if startsWith (lower (lstrip line)) "labels:".toList then
      match readLabels n 0 rest with
      | .error e => .error e
      | .ok (ls, rest) => readHeader n nm k { h with labels := some ls } rest
    else if startsWith (lower (lstrip line)) "row labels:".toList then
      match readLabels n 0 rest with
      | .error e => .error e
      | .ok (ls, rest) => readHeader n nm k { h with rlabels := some ls } rest
    else if startsWith (lower (lstrip line)) "column labels:".toList then
      match readLabels n 0 rest with
      | .error e => .error e
      | .ok (ls, rest) => readHeader n nm k { h with clabels := some ls } rest
    else if startsWith (lower (lstrip line)) "level labels:".toList then
      match readLabels nm 0 rest with
      | .error e => .error e
      | .ok (ls, rest) => readHeader n nm k { h with llabels := some ls } rest
    else if startsWith (lower (lstrip line)) "data".toList then .ok (h, rest)
    else if startsWith (lower (lstrip line)) "labels embedded".toList then
      readHeader n nm k { h with embedded := true } rest
    else .error .exception

/-- The rows of the data (netio.py 259-265): lines are joined until there are at least `n` fields. `cur` has the fields
of the row being read; a row that is not finished is dropped (netio.py 280). -/
def dataRows (n : Nat) : List Text → List Text → List (List Text)
  | _, [] => []
  | cur, line :: rest =>
    if (cur ++ words line).length < n then dataRows n (cur ++ words line) rest
    else (cur ++ words line) :: dataRows n [] rest

/-- The network being read. -/
inductive UciNet (α W : Type)
  | mono (m : MNet α W)
  | plex (p : MPlex α W)

/-- One field of a row of a network with one level (netio.py 271-275). -/
def monoField (float : Text → Option W) [Zero W] (clabels : List α) (rlabel : Option α) (m : MNet α W) (f : Nat × Text) :
    Except Err (MNet α W) :=
  match clabels[f.1]?, rlabel with
  | some c, some r =>
    if c ≠ r then
      match float f.2 with
      | none => .error .valueError
      | some w => if w ≠ 0 then (m.nodeSet [c] [r] w).toExcept else .ok m
    else .ok m
  | _, _ => .error .indexError

/-- One field of a row of a network with levels (netio.py 276-280). -/
def plexField (float : Text → Option W) [Zero W] (clabels : List α) (rlabel : Option α) (llabel : Option α) (p : MPlex α W)
    (f : Nat × Text) : Except Err (MPlex α W) :=
  match clabels[f.1]?, rlabel with
  | some c, some r =>
    if c ≠ r then
      match float f.2 with
      | none => .error .valueError
      | some w =>
        if w ≠ 0 then
          match llabel with
          | none => .error .indexError
          | some l => (p.setItem [c, r, l, l] w).toExcept
        else .ok p
    else .ok p
  | _, _ => .error .indexError

/-- `enumerate`. -/
def enumFrom {β : Type} : Nat → List β → List (Nat × β)
  | _, [] => []
  | k, x :: t => (k, x) :: enumFrom (k + 1) t

/-- The state of the loop over the rows: the network, the row labels, and the number of rows read. -/
abbrev RowState (N α : Type) := N × List α × Nat

/-- Embedded labels (netio.py 267-269): the first field of a row is its label, in lower case. -/
def takeLabel (name : Text → α) (embedded : Bool) (rlabels : List α) (fields : List Text) : Except Err (List α × List Text) :=
  if embedded then
    match fields with
    | [] => .error .indexError
    | x :: t => .ok (rlabels ++ [name (lower x)], t)
  else .ok (rlabels, fields)

/-- One row (netio.py 267-281). The arguments of `field` are the label of the row and the number of the level. -/
def dataRow {N : Type} (name : Text → α) (n : Nat) (embedded : Bool)
    (field : List α → Nat → N → Nat × Text → Except Err N) (s : RowState N α) (fields : List Text) : Except Err (RowState N α) :=
  match takeLabel name embedded s.2.1 fields with
  | .error e => .error e
  | .ok (rl, fs) =>
    if fs.length = n then
      match forE (field rl s.2.2) (enumFrom 0 fs) s.1 with
      | .error e => .error e
      | .ok net => .ok (net, rl, s.2.2 + 1)
    else .error .assertionError

/-- The rows and the check of their number (netio.py 258-283). -/
def readRows {N : Type} (name : Text → α) (n nm : Nat) (embedded : Bool)
    (field : List α → Nat → N → Nat × Text → Except Err N) (rlabels : List α) (net : N) (lines : List Text) :
    Except Err (N × List α) :=
  match forE (dataRow name n embedded field) (dataRows n [] lines) (net, rlabels, 0) with
  | .error e => .error e
  | .ok s => if s.2.2 = n * nm then .ok (s.1, s.2.1) else .error .assertionError

/-- `net.A[layer].add_node(node)` for all layers and labels (netio.py 288-293). -/
def addLabels [Zero W] (clabels rlabels : List α) (p : MPlex α W) (l : α) : Except Err (MPlex α W) :=
  match forE (fun (p : MPlex α W) x => (p.childAddNode (.el l) x).toExcept) clabels p with
  | .error e => .error e
  | .ok p => forE (fun (p : MPlex α W) x => (p.childAddNode (.el l) x).toExcept) rlabels p

/-- The data part of `read_ucinet` (netio.py 244-296), after the labels are sorted out. The test of the format is always
true: `format=="fullmatrix" or "fullmatrix diagonal present"`. -/
def readData [Zero W] (name : Text → α) (float : Text → Option W) (c : Coupling α W) (fic : Bool) (n nm : Nat)
    (embedded : Bool) (clabels rlabels llabels : List α) (lines : List Text) : Except Err (UciNet α W) :=
  match (if embedded then
      match lines with
      | [] => .error .unboundLocalError
      | l :: rest => .ok ((words l).map (fun x => name (lower x)), [], rest)
    else .ok (clabels, rlabels, lines) : Except Err (List α × List α × List Text)) with
  | .error e => .error e
  | .ok (clabels, rlabels, lines) =>
    if clabels.length = n then
      if nm = 1 then
        match readRows name n nm embedded (fun rl row => monoField float clabels rl[row]?) rlabels (MNet.init 0 0 false true)
            lines with
        | .error e => .error e
        | .ok (m, _) => .ok (.mono m)
      else
        match readRows name n nm embedded (fun rl row => plexField float clabels rl[row % n]? llabels[row / n]?) rlabels
            (MPlex.init [c] false 0 fic) lines with
        | .error e => .error e
        | .ok (p, rl) =>
          if fic then
            match forE (addLabels clabels rl) llabels p with
            | .error e => .error e
            | .ok p => .ok (.plex p)
          else .ok (.plex p)
    else .error .assertionError

/-- `read_ucinet` (netio.py 91-296) of an iterable of lines. `idx` is a number as a name, `name` a label. -/
def readUcinet [Zero W] (idx : Nat → α) (name : Text → α) (float : Text → Option W) (c : Coupling α W) (fic : Bool)
    (lines : List Text) : Except Err (UciNet α W) :=
  match readSize lines with
  | .error e => .error e
  | .ok ((n, nm), lines) =>
    match readHeader n nm lines.length {} lines with
    | .error e => .error e
    | .ok (h, lines) =>
      if h.embedded = true ∧ (h.labels.isSome = true ∨ h.rlabels.isSome = true ∨ h.clabels.isSome = true) then .error .exception
      else if h.labels.isSome = true ∧ h.rlabels.isSome = true ∧ h.clabels.isSome = true then .error .exception
      else
        let nums (k : Nat) : List α := (List.range k).map idx
        let labels : Option (List α) := h.labels.map (List.map name)
        readData name float c fic n nm h.embedded
          ((h.clabels.map (List.map name)).getD (labels.getD (nums n)))
          ((h.rlabels.map (List.map name)).getD (labels.getD (nums n)))
          ((h.llabels.map (List.map name)).getD (nums nm)) lines

end Pymnet
