import Verif.Model.WebPlot

/-!
Specification of JSON texts, of JavaScript string literals and of the scripts of a page, for C151 and C152: small readers, written without reference to
how the texts are written.
-/

namespace Pymnet.Spec

/-- A JSON value; numbers are integers. -/
inductive JVal where
  | num (n : Int)
  | str (t : Text)
  | arr (l : List JVal)
  | obj (l : List (Text × JVal))

/-- The value of a hexadecimal digit. -/
def hexVal (c : Char) : Option Nat :=
  if '0' ≤ c ∧ c ≤ '9' then some (c.toNat - 48) else if 'a' ≤ c ∧ c ≤ 'f' then some (c.toNat - 87)
  else if 'A' ≤ c ∧ c ≤ 'F' then some (c.toNat - 55) else none

/-- The value of four hexadecimal digits. -/
def hex4 (a b c d : Char) : Option Nat :=
  match hexVal a, hexVal b, hexVal c, hexVal d with
  | some a, some b, some c, some d => some (((a * 16 + b) * 16 + c) * 16 + d)
  | _, _, _, _ => none

/-- The UTF-16 code units of a character. -/
def units (c : Char) : List Nat :=
  if c.toNat < 65536 then [c.toNat] else [55296 + (c.toNat - 65536) / 1024, 56320 + (c.toNat - 65536) % 1024]

/-- The text of a sequence of UTF-16 code units; `none` if there is an unpaired surrogate. -/
def ofUnits : List Nat → Option Text
  | [] => some []
  | h :: r =>
    if 55296 ≤ h ∧ h < 56320 then
      match r with
      | [] => none
      | l :: r =>
        if 56320 ≤ l ∧ l < 57344 then (ofUnits r).map fun t => Char.ofNat (65536 + (h - 55296) * 1024 + (l - 56320)) :: t else none
    else if 56320 ≤ h ∧ h < 57344 then none
    else (ofUnits r).map fun t => Char.ofNat h :: t

/-- The code units of a JSON string, read from after the opening quotation mark, and the text after the closing one. -/
def jsonUnits : Text → Option (List Nat × Text)
  | [] => none
  | '"' :: r => some ([], r)
  | '\\' :: 'u' :: a :: b :: c :: d :: r =>
    match hex4 a b c d with
    | some n => (jsonUnits r).map fun p => (n :: p.1, p.2)
    | none => none
  | '\\' :: '"' :: r => (jsonUnits r).map fun p => (34 :: p.1, p.2)
  | '\\' :: '\\' :: r => (jsonUnits r).map fun p => (92 :: p.1, p.2)
  | '\\' :: '/' :: r => (jsonUnits r).map fun p => (47 :: p.1, p.2)
  | '\\' :: 'n' :: r => (jsonUnits r).map fun p => (10 :: p.1, p.2)
  | '\\' :: 'r' :: r => (jsonUnits r).map fun p => (13 :: p.1, p.2)
  | '\\' :: 't' :: r => (jsonUnits r).map fun p => (9 :: p.1, p.2)
  | '\\' :: 'f' :: r => (jsonUnits r).map fun p => (12 :: p.1, p.2)
  | '\\' :: 'b' :: r => (jsonUnits r).map fun p => (8 :: p.1, p.2)
  | '\\' :: _ => none
  | c :: r => if c.toNat < 32 then none else (jsonUnits r).map fun p => (units c ++ p.1, p.2)

/-- A JSON string, read from after the opening quotation mark. -/
def jsonString (t : Text) : Option (Text × Text) :=
  match jsonUnits t with
  | none => none
  | some (u, r) => (ofUnits u).map fun s => (s, r)

/-- JSON white space. -/
def skipSpace : Text → Text
  | [] => []
  | c :: t => if c = ' ' ∨ c = '\t' ∨ c = '\n' ∨ c = '\r' then skipSpace t else c :: t

/-- The digits of a number; numbers that are not integers are not read. -/
def jsonNat (t : Text) : Option (Nat × Text) :=
  if t.takeWhile Char.isDigit = [] then none
  else
    match t.dropWhile Char.isDigit with
    | '.' :: _ => none
    | 'e' :: _ => none
    | 'E' :: _ => none
    | r => some ((t.takeWhile Char.isDigit).foldl (fun a c => a * 10 + (c.toNat - 48)) 0, r)

mutual

/-- A JSON value at the beginning of a text, and the text after it; the number bounds the depth of the recursion. -/
def jsonVal : Nat → Text → Option (JVal × Text)
  | 0, _ => none
  | n + 1, t =>
    match skipSpace t with
    | '"' :: r => (jsonString r).map fun p => (.str p.1, p.2)
    | '[' :: r =>
      match jsonItems n r with
      | some (l, r) => some (.arr l, r)
      | none =>
        match skipSpace r with
        | ']' :: r => some (.arr [], r)
        | _ => none
    | '{' :: r =>
      match jsonMembers n r with
      | some (l, r) => some (.obj l, r)
      | none =>
        match skipSpace r with
        | '}' :: r => some (.obj [], r)
        | _ => none
    | '-' :: r => (jsonNat r).map fun p => (.num (-(p.1 : Int)), p.2)
    | r => (jsonNat r).map fun p => (.num p.1, p.2)

/-- One or more values separated by commas, up to the closing bracket. -/
def jsonItems : Nat → Text → Option (List JVal × Text)
  | 0, _ => none
  | n + 1, t =>
    match jsonVal n t with
    | none => none
    | some (v, r) =>
      match skipSpace r with
      | ',' :: r => (jsonItems n r).map fun p => (v :: p.1, p.2)
      | ']' :: r => some ([v], r)
      | _ => none

/-- One or more members separated by commas, up to the closing brace. -/
def jsonMembers : Nat → Text → Option (List (Text × JVal) × Text)
  | 0, _ => none
  | n + 1, t =>
    match skipSpace t with
    | '"' :: r =>
      match jsonString r with
      | none => none
      | some (k, r) =>
        match skipSpace r with
        | ':' :: r =>
          match jsonVal n r with
          | none => none
          | some (v, r) =>
            match skipSpace r with
            | ',' :: r => (jsonMembers n r).map fun p => ((k, v) :: p.1, p.2)
            | '}' :: r => some ([(k, v)], r)
            | _ => none
        | _ => none
    | _ => none

end

/-- The text is the JSON text of the value: with enough depth it is read as this value, and nothing is left. -/
def IsJson (t : Text) (v : JVal) : Prop := ∃ N, ∀ n ≥ N, jsonVal n t = some (v, [])

/-- The JSON value of a name. -/
def nameVal : JName → JVal
  | .int n => .num n
  | .str t => .str t

/-- The JSON value with the data of a network: nodes and layers by name, links by the positions of their nodes and layer. -/
def netVal (nodes layers : List JName) (links : List (Nat × Nat × Int × Nat)) : JVal :=
  .obj [("nodes".toList, .arr (nodes.map fun x => .obj [("name".toList, nameVal x)])),
    ("layers".toList, .arr (layers.map fun x => .obj [("name".toList, nameVal x)])),
    ("links".toList, .arr (links.map fun e => .obj [("source".toList, .num e.1), ("target".toList, .num e.2.1), ("value".toList, .num e.2.2.1),
      ("layer".toList, .num e.2.2.2)]))]

/-! ### How a browser reads the page -/

/-- The text after the first occurrence of `key`. -/
def afterFirst (key : Text) : Text → Option Text
  | [] => if key = [] then some [] else none
  | c :: t => if key.isPrefixOf (c :: t) then some ((c :: t).drop key.length) else afterFirst key t

/-- The text before the first occurrence of `key`, or all of it. -/
def beforeFirst (key : Text) : Text → Text
  | [] => []
  | c :: t => if key.isPrefixOf (c :: t) then [] else c :: beforeFirst key t

/-- The code units of a JavaScript string literal in single quotes, read from after the opening quote, and the text after the closing quote; `none` if
it is not a literal. Escapes with `x`, with digits, with `u{` and of line breaks are left out. -/
def jsUnits : Text → Option (List Nat × Text)
  | [] => none
  | '\'' :: r => some ([], r)
  | '\n' :: _ => none
  | '\r' :: _ => none
  | '\\' :: 'u' :: a :: b :: c :: d :: r =>
    match hex4 a b c d with
    | some n => (jsUnits r).map fun p => (n :: p.1, p.2)
    | none => none
  | '\\' :: 'n' :: r => (jsUnits r).map fun p => (10 :: p.1, p.2)
  | '\\' :: 'r' :: r => (jsUnits r).map fun p => (13 :: p.1, p.2)
  | '\\' :: 't' :: r => (jsUnits r).map fun p => (9 :: p.1, p.2)
  | '\\' :: 'f' :: r => (jsUnits r).map fun p => (12 :: p.1, p.2)
  | '\\' :: 'b' :: r => (jsUnits r).map fun p => (8 :: p.1, p.2)
  | '\\' :: 'v' :: r => (jsUnits r).map fun p => (11 :: p.1, p.2)
  | '\\' :: c :: r => (jsUnits r).map fun p => (units c ++ p.1, p.2)
  | '\\' :: [] => none
  | c :: r => (jsUnits r).map fun p => (units c ++ p.1, p.2)

/-- The string that the script of a page passes to `JSON.parse`, and the rest of the script after the string; `none` if there is no complete string.
The script ends at the first `</script`. -/
def passed (page : Text) : Option (Text × Text) :=
  match afterFirst "JSON.parse('".toList page with
  | none => none
  | some r =>
    match jsUnits (beforeFirst "</script".toList r) with
    | none => none
    | some (u, r) => (ofUnits u).map fun t => (t, r)

end Pymnet.Spec
