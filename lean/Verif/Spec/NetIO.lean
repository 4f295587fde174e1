import Verif.Model.NetIO
import Verif.Spec.Plex
import Mathlib.Data.Nat.Digits.Defs

/-! What the files read and written by netio.py say. Nothing here refers to the readers and writers. -/

namespace Pymnet.Spec

open Pymnet

variable {α W : Type}

/-! ### Text -/

/-- White space only. -/
def Blank (t : Text) : Prop := ∀ c ∈ t, Text.isSpace c = true

/-- A non-empty piece of text without white space. -/
def Word (t : Text) : Prop := t ≠ [] ∧ ∀ c ∈ t, Text.isSpace c = false

/-- The line consists of the given words, separated by white space. -/
inductive Fields : Text → List Text → Prop
  | nil {t : Text} : Blank t → Fields t []
  | cons {s w t : Text} {ws : List Text} : Blank s → Word w → (∀ c t', t = c :: t' → Text.isSpace c = true) → Fields t ws →
      Fields (s ++ (w ++ t)) (w :: ws)

/-- The pieces joined by a character. -/
def joined (sep : Char) : List Text → Text
  | [] => []
  | [w] => w
  | w :: ws => w ++ sep :: joined sep ws

/-- The number written by decimal digits. -/
def decimal (t : Text) : Nat := Nat.ofDigits 10 (t.reverse.map fun c => c.toNat - 48)

/-- A non-empty text of digits. -/
def Digits (t : Text) : Prop := t ≠ [] ∧ ∀ c ∈ t, c.isDigit = true

/-! ### Multiplex networks with one aspect -/

/-- What a history leaves in a multiplex network with one aspect: its nodes, its layers, which node is on which layer,
and the weights of the links of the layers. -/
structure Content [Zero W] (directed aligned : Bool) (ops : List (POp α W)) (nodes layers : α → Prop) (on : α → α → Prop)
    (weight : α → α → α → W) : Prop where
  nodes_iff : ∀ x, Happened (NamesNodeP 1 aligned x) ops ↔ nodes x
  layers_iff : ∀ s, HasLayer 1 aligned ops (.el s) ↔ layers s
  on_iff : ∀ x s, HasNodeLayer 1 aligned ops [x, s] ↔ on x s
  weight_eq : ∀ s i j, readP 1 directed aligned ops [s] i j = weight s i j
  noSelf : NoIntraSelf ops

open Classical in
/-- The weight of the last of the entries (layer, from, to, weight) for a link of a layer; 0 if there is none. -/
noncomputable def lastEntry [Zero W] (directed : Bool) (es : List (α × α × α × W)) (s i j : α) : W :=
  es.foldl (fun w e => if s = e.1 ∧ e.2.1 ≠ e.2.2.1 ∧ SameLink directed e.2.1 e.2.2.1 i j then e.2.2.2 else w) 0

/-- A line of an edge file: layer, from, to, weight. -/
def EdgeLine (int : Text → Option α) (float : Text → Option W) (line : Text) (e : α × α × α × W) : Prop :=
  ∃ l f t w, Fields line [l, f, t, w] ∧ int l = some e.1 ∧ int f = some e.2.1 ∧ int t = some e.2.2.1 ∧
    float w = some e.2.2.2

/-- The list has every link exactly once; in one of its directions if the network is undirected. -/
structure EachOnce [Zero W] (directed : Bool) (weight : α → α → W) (ps : List (α × α)) : Prop where
  nodup : ps.Nodup
  isLink : ∀ p ∈ ps, weight p.1 p.2 ≠ 0
  all : directed = true → ∀ i j, weight i j ≠ 0 → (i, j) ∈ ps
  either : directed = false → ∀ i j, weight i j ≠ 0 → (i, j) ∈ ps ∨ (j, i) ∈ ps
  notBoth : directed = false → ∀ i j, i ≠ j → (i, j) ∈ ps → (j, i) ∉ ps

/-- The text written for a link: the two nodes and, if wanted, the weight. -/
def rowText (csep rsep : Text) (weights : Bool) (x y w : Text) : Text :=
  joined' csep (if weights then [x, y, w] else [x, y]) ++ rsep
where
  /-- The pieces joined by a text. -/
  joined' (sep : Text) : List Text → Text
    | [] => []
    | [w] => w
    | w :: ws => w ++ sep ++ joined' sep ws

/-- The part of a path after the last slash. -/
def FileName (path name : Text) : Prop := '/' ∉ name ∧ ∃ dir, path = dir ++ name ∧ (dir = [] ∨ ∃ d, dir = d ++ ['/'])

/-! ### UCINET files -/

/-- The parts of the header of a file after the sizes. Labels are given in lines of several labels. -/
inductive Sec
  | format (f : Text)
  | labels (g : List (List Text))
  | rowLabels (g : List (List Text))
  | colLabels (g : List (List Text))
  | levelLabels (g : List (List Text))
  deriving DecidableEq

/-- The line has this keyword, in upper or lower case; white space around it does not matter. -/
def Keyword (k line : Text) : Prop := ∃ s t s', Blank s ∧ Text.lower t = k ∧ Blank s' ∧ line = s ++ t ++ s'

/-- The text with white space around it. -/
def Padded (w t : Text) : Prop := ∃ s s', Blank s ∧ Blank s' ∧ t = s ++ w ++ s'

/-- The line has these labels, separated by commas; white space around them does not matter. -/
def LabelLine (ls : List Text) (line : Text) : Prop := ∃ us, List.Forall₂ Padded ls us ∧ line = joined ',' us

/-- The lines of a part. -/
inductive Sec.Lines : Sec → List Text → Prop
  | format {k f : Text} : Keyword "format".toList k → Sec.Lines (.format f) [k ++ '=' :: f]
  | labels {k : Text} {g : List (List Text)} {ls : List Text} : Keyword "labels:".toList k →
      List.Forall₂ LabelLine g ls → Sec.Lines (.labels g) (k :: ls)
  | rowLabels {k : Text} {g : List (List Text)} {ls : List Text} : Keyword "row labels:".toList k →
      List.Forall₂ LabelLine g ls → Sec.Lines (.rowLabels g) (k :: ls)
  | colLabels {k : Text} {g : List (List Text)} {ls : List Text} : Keyword "column labels:".toList k →
      List.Forall₂ LabelLine g ls → Sec.Lines (.colLabels g) (k :: ls)
  | levelLabels {k : Text} {g : List (List Text)} {ls : List Text} : Keyword "level labels:".toList k →
      List.Forall₂ LabelLine g ls → Sec.Lines (.levelLabels g) (k :: ls)

/-- Text without white space at its ends. -/
def Trimmed (t : Text) : Prop := (∀ c t', t = c :: t' → Text.isSpace c = false) ∧ ∀ c t', t = t' ++ [c] → Text.isSpace c = false

/-- The lines have `k` labels, each line some; no label has a comma or white space around it. -/
def Labels (k : Nat) (g : List (List Text)) : Prop :=
  g.flatten.length = k ∧ ∀ ls ∈ g, ls ≠ [] ∧ ∀ l ∈ ls, ',' ∉ l ∧ Trimmed l

/-- A part of the header of a file with `n` nodes and `nm` levels. -/
def Sec.Ok (n nm : Nat) : Sec → Prop
  | .format f => '=' ∉ Text.lower f
  | .labels g | .rowLabels g | .colLabels g => Labels n g
  | .levelLabels g => Labels nm g

/-- The last of the parts that gives a value. -/
def lastOf {β : Type} (f : Sec → Option β) (secs : List Sec) : Option β :=
  secs.foldl (fun r s => (f s).or r) none

def Sec.labels? : Sec → Option (List Text) | .labels g => some g.flatten | _ => none
def Sec.rowLabels? : Sec → Option (List Text) | .rowLabels g => some g.flatten | _ => none
def Sec.colLabels? : Sec → Option (List Text) | .colLabels g => some g.flatten | _ => none
def Sec.levelLabels? : Sec → Option (List Text) | .levelLabels g => some g.flatten | _ => none

/-- The names of the columns: the column labels, else the labels, else numbers. -/
def colNames (idx : Nat → α) (name : Text → α) (n : Nat) (secs : List Sec) : List α :=
  match lastOf Sec.colLabels? secs, lastOf Sec.labels? secs with
  | some l, _ => l.map name
  | none, some l => l.map name
  | none, none => (List.range n).map idx

/-- The names of the rows: the row labels, else the labels, else numbers. -/
def rowNames (idx : Nat → α) (name : Text → α) (n : Nat) (secs : List Sec) : List α :=
  match lastOf Sec.rowLabels? secs, lastOf Sec.labels? secs with
  | some l, _ => l.map name
  | none, some l => l.map name
  | none, none => (List.range n).map idx

/-- The names of the levels: the level labels, else numbers. -/
def levelNames (idx : Nat → α) (name : Text → α) (nm : Nat) (secs : List Sec) : List α :=
  match lastOf Sec.levelLabels? secs with
  | some l => l.map name
  | none => (List.range nm).map idx

/-- Not all three kinds of labels are given. -/
def NotRedundant (secs : List Sec) : Prop :=
  lastOf Sec.labels? secs = none ∨ lastOf Sec.rowLabels? secs = none ∨ lastOf Sec.colLabels? secs = none

/-- The text giving the sizes: `N = n`, or `N = n NM = nm`. -/
inductive SizeText : Text → Nat → Nat → Prop
  | one {s1 N s2 s3 d s4 : Text} : Blank s1 → Text.lower N = "n".toList → Blank s2 → Blank s3 → Digits d → Blank s4 →
      SizeText (s1 ++ N ++ s2 ++ '=' :: (s3 ++ d ++ s4)) (decimal d) 1
  | two {s1 N s2 s3 d s4 M s5 s6 e s7 : Text} : Blank s1 → Text.lower N = "n".toList → Blank s2 → Blank s3 → Digits d →
      Blank s4 → s4 ≠ [] → Text.lower M = "nm".toList → Blank s5 → Blank s6 → Digits e → Blank s7 →
      SizeText (s1 ++ N ++ s2 ++ '=' :: (s3 ++ (d ++ (s4 ++ (M ++ s5))) ++ '=' :: (s6 ++ e ++ s7))) (decimal d) (decimal e)

/-- The first lines: `DL` and the sizes, on one line or two. -/
inductive Start : List Text → Nat → Nat → Prop
  | same {D t : Text} {n nm : Nat} : Text.lower D = "dl".toList → SizeText t n nm → Start [D ++ t] n nm
  | next {D s t : Text} {n nm : Nat} : Text.lower D = "dl".toList → Blank s → SizeText t n nm → Start [D ++ s, t] n nm

/-- The lines contain rows of `k + e` fields each, every row on one line or on several (then the last line has one of
the last `e + 1` fields); blank lines may follow. -/
inductive Rows (k e : Nat) : List Text → List (List Text) → Prop
  | nil {lines : List Text} : (lines ≠ [] → 0 < k) → (∀ l ∈ lines, Blank l) → Rows k e lines []
  | row {block rest : List Text} {fields : List (List Text)} {rows : List (List Text)} : block ≠ [] →
      List.Forall₂ Fields block fields → fields.flatten.length = k + e →
      fields.dropLast.flatten.length < k ∨ block.length = 1 →
      Rows k e rest rows → Rows k e (block ++ rest) (fields.flatten :: rows)

/-- The lines of a file with `n` nodes and `nm` levels: the sizes, the parts of the header, and the data. -/
def UciFile (lines : List Text) (n nm : Nat) (secs : List Sec) (data : List Text) : Prop :=
  ∃ start blocks d, lines = start ++ (blocks.flatten ++ d :: data) ∧ Start start n nm ∧ List.Forall₂ Sec.Lines secs blocks ∧
    (∀ s ∈ secs, s.Ok n nm) ∧ Keyword "data:".toList d

/-- The lines of a file whose header says that the labels of the rows and columns are embedded in the data. -/
def UciEmbedded (lines : List Text) (n nm : Nat) (secs : List Sec) (data : List Text) : Prop :=
  ∃ start blocks blocks' secs1 secs2 e d, lines = start ++ (blocks.flatten ++ e :: (blocks'.flatten ++ d :: data)) ∧
    secs = secs1 ++ secs2 ∧ Start start n nm ∧ List.Forall₂ Sec.Lines secs1 blocks ∧ List.Forall₂ Sec.Lines secs2 blocks' ∧
    (∀ s ∈ secs, s.Ok n nm) ∧ Keyword "labels embedded".toList e ∧ Keyword "data:".toList d

/-- The fields are the numbers `M`. The fields where the row and the column have the same name are not looked at. -/
def Values (float : Text → Option W) (cols rows : List α) (n : Nat) (fields : Nat → List Text) (M : Nat → Nat → W) (N : Nat) : Prop :=
  ∀ (r c : Nat) f, r < N → (fields r)[c]? = some f → cols[c]? ≠ rows[r % n]? → float f = some (M r c)

/-- The entries other than 0 off the diagonal in reading order: level, column, row, weight. `M r c` is the value in row
`r` of the file and column `c`. -/
def entries [Zero W] [DecidableEq α] [DecidableEq W] (cols rows levels : List α) (n nm : Nat) (M : Nat → Nat → W) :
    List (α × α × α × W) :=
  (List.range (n * nm)).flatMap fun r => (List.range n).filterMap fun c =>
    match levels[r / n]?, cols[c]?, rows[r % n]? with
    | some l, some x, some y => if x ≠ y ∧ M r c ≠ 0 then some (l, x, y, M r c) else none
    | _, _, _ => none

end Pymnet.Spec
