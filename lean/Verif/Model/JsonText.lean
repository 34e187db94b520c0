import Verif.Model.Config
/-!
# The text of a JSON file (serde_json 1, used by src/config/mod.rs and src/config/consensus.rs)

The code hands all JSON to the library `serde_json` (`Cargo.toml` line 24). This file models what the library does with
the text, as its documentation and its published source (1.0.89) describe it: the reader behind `from_reader` and
`from_str`, and the writer behind `to_writer_pretty`. It gives a concrete `JsonLib`.

Simplified: a number with a fraction, with an exponent, or outside the ranges of `i64` and `u64` is `float`, without its
value; a number beyond the range of `f64` is `float` too, where the library gives an error (no setting is read from a
`float`, so both are refused there). A value that is skipped because its name is unknown is read here like any other; the
library skips it without the limit on nesting and without checking surrogates. A file that is not UTF-8 has no text.
-/

namespace Verif.Config
open Verif

/-! ## Reading: `from_str`, `from_reader` (src/config/mod.rs lines 525 and 639, src/config/consensus.rs line 603) -/

/-- `parse_whitespace`: blank, newline, tabulator, carriage return. -/
def isWs (c : Char) : Bool := c = ' ' || c = '\n' || c = '\t' || c = '\r'

/-- `parse_whitespace`. -/
def skipWs (s : Str) : Str := s.dropWhile isWs

/-- `b'0'..=b'9'`. -/
def isDigit (c : Char) : Bool := 48 ≤ c.toNat && c.toNat ≤ 57

/-- The number written by decimal digits. -/
def digitsVal (ds : Str) : Nat := ds.foldl (fun n c => 10 * n + (c.toNat - 48)) 0

/-- `decode_hex_val`. -/
def hexVal (c : Char) : Option Nat :=
  if 48 ≤ c.toNat ∧ c.toNat ≤ 57 then some (c.toNat - 48)
  else if 65 ≤ c.toNat ∧ c.toNat ≤ 70 then some (c.toNat - 55)
  else if 97 ≤ c.toNat ∧ c.toNat ≤ 102 then some (c.toNat - 87)
  else none

/-- `decode_hex_escape`: four hexadecimal digits. -/
def hex4 : Str → Option (Nat × Str)
  | a :: b :: c :: d :: t =>
    match hexVal a, hexVal b, hexVal c, hexVal d with
    | some a, some b, some c, some d => some (((a * 16 + b) * 16 + c) * 16 + d, t)
    | _, _, _, _ => none
  | _ => none

/-- `parse_escape`, the escapes of one letter. -/
def escChar (c : Char) : Option Char :=
  if c = '"' then some '"'
  else if c = '\\' then some '\\'
  else if c = '/' then some '/'
  else if c = 'b' then some (Char.ofNat 8)
  else if c = 'f' then some (Char.ofNat 12)
  else if c = 'n' then some '\n'
  else if c = 'r' then some '\r'
  else if c = 't' then some '\t'
  else none

/-- `parse_escape` after `\u`: a character, or the first half of a pair of surrogates, which the second must follow. -/
def uniEsc (s : Str) : Option (Char × Str) :=
  match hex4 s with
  | none => none
  | some (n, t) =>
    if 0xDC00 ≤ n ∧ n ≤ 0xDFFF then none
    else if 0xD800 ≤ n ∧ n ≤ 0xDBFF then
      match t with
      | '\\' :: 'u' :: t' =>
        match hex4 t' with
        | none => none
        | some (m, t'') =>
          if 0xDC00 ≤ m ∧ m ≤ 0xDFFF then some (Char.ofNat (0x10000 + (n - 0xD800) * 0x400 + (m - 0xDC00)), t'')
          else none
      | _ => none
    else some (Char.ofNat n, t)

/-- `parse_str`, after the opening quotation mark: control characters are refused. The first argument bounds the number
of characters. -/
def strBody : Nat → Str → Option (Str × Str)
  | 0, _ => none
  | _ + 1, [] => none
  | k + 1, c :: t =>
    if c = '"' then some ([], t)
    else if c = '\\' then
      match t with
      | [] => none
      | e :: u =>
        if e = 'u' then
          match uniEsc u with
          | none => none
          | some (x, u) => (strBody k u).map fun r => (x :: r.1, r.2)
        else
          match escChar e with
          | none => none
          | some x => (strBody k u).map fun r => (x :: r.1, r.2)
    else if c.toNat < 0x20 then none
    else (strBody k t).map fun r => (c :: r.1, r.2)

/-- `parse_integer`: a single `0`, or digits that do not begin with it. -/
def intPart : Str → Option (Str × Str)
  | [] => none
  | c :: t =>
    if c = '0' then some (['0'], t)
    else if isDigit c then some (c :: t.takeWhile isDigit, t.dropWhile isDigit)
    else none

/-- `parse_decimal`: a point must be followed by a digit. -/
def fracPart : Str → Option (Bool × Str)
  | [] => some (false, [])
  | c :: t =>
    if c = '.' then (if t.takeWhile isDigit = [] then none else some (true, t.dropWhile isDigit))
    else some (false, c :: t)

/-- The sign of an exponent. -/
def dropSign : Str → Str
  | [] => []
  | c :: t => if c = '+' ∨ c = '-' then t else c :: t

/-- `parse_exponent`: a digit must follow. -/
def expPart : Str → Option (Bool × Str)
  | [] => some (false, [])
  | c :: t =>
    if c = 'e' ∨ c = 'E' then
      (if (dropSign t).takeWhile isDigit = [] then none else some (true, (dropSign t).dropWhile isDigit))
    else some (false, c :: t)

/-- `parse_number`: `-0` and integers out of range are floating point. -/
def intVal (neg : Bool) (n : Nat) : Json :=
  if neg then (if 0 < n ∧ n ≤ 2 ^ 63 then .num (-(n : Int)) else .float)
  else if n < 2 ^ 64 then .num n else .float

/-- `parse_any_number`, without the sign. -/
def number (neg : Bool) (s : Str) : Option (Json × Str) :=
  match intPart s with
  | none => none
  | some (ds, t) =>
    match fracPart t with
    | none => none
    | some (f, t) =>
      match expPart t with
      | none => none
      | some (e, t) => some (if f || e then .float else intVal neg (digitsVal ds), t)

/-- `parse_ident`. -/
def ident (w : Str) (j : Json) (s : Str) : Option (Json × Str) :=
  if w.isPrefixOf s then some (j, s.drop w.length) else none

mutual
/-- `deserialize_any`: a value. The first argument bounds the number of calls, the second is how many arrays and objects
may still be entered (`remaining_depth`). -/
def value : Nat → Nat → Str → Option (Json × Str)
  | 0, _, _ => none
  | _ + 1, _, [] => none
  | k + 1, d, c :: t =>
    if c = 'n' then ident ['u', 'l', 'l'] .null t
    else if c = 't' then ident ['r', 'u', 'e'] (.bool true) t
    else if c = 'f' then ident ['a', 'l', 's', 'e'] (.bool false) t
    else if c = '"' then (strBody (t.length + 1) t).map fun r => (.str r.1, r.2)
    else if c = '[' then
      match d with
      | 0 => none
      | d + 1 =>
        match skipWs t with
        | [] => none
        | x :: u => if x = ']' then some (.arr [], u) else (elements k d (x :: u)).map fun r => (.arr r.1, r.2)
    else if c = '{' then
      match d with
      | 0 => none
      | d + 1 =>
        match skipWs t with
        | [] => none
        | x :: u => if x = '}' then some (.obj [], u) else (members k d (x :: u)).map fun r => (.obj r.1, r.2)
    else if c = '-' then number true t
    else number false (c :: t)

/-- `SeqAccess`: the elements of an array, with the closing bracket. -/
def elements : Nat → Nat → Str → Option (List Json × Str)
  | 0, _, _ => none
  | k + 1, d, s =>
    match value k d s with
    | none => none
    | some (j, r) =>
      match skipWs r with
      | [] => none
      | x :: u =>
        if x = ']' then some ([j], u)
        else if x = ',' then (elements k d (skipWs u)).map fun r => (j :: r.1, r.2)
        else none

/-- `MapAccess`: the members of an object, with the closing brace. -/
def members : Nat → Nat → Str → Option (List (Str × Json) × Str)
  | 0, _, _ => none
  | _ + 1, _, [] => none
  | k + 1, d, c :: t =>
    if c = '"' then
      match strBody (t.length + 1) t with
      | none => none
      | some (key, r) =>
        match skipWs r with
        | [] => none
        | x :: u =>
          if x = ':' then
            match value k d (skipWs u) with
            | none => none
            | some (j, r) =>
              match skipWs r with
              | [] => none
              | x :: u =>
                if x = '}' then some ([(key, j)], u)
                else if x = ',' then (members k d (skipWs u)).map fun r => ((key, j) :: r.1, r.2)
                else none
          else none
    else none
end

/-- `from_str`, `from_reader`: one value, with nothing but white space around it. At most 127 arrays and objects may be
open at a time (`remaining_depth: 128`). -/
def jsonParse (s : Str) : Option Json :=
  match value s.length 127 (skipWs s) with
  | none => none
  | some (j, r) => if skipWs r = [] then some j else none

/-! ## Writing: `to_writer_pretty` (src/config/mod.rs line 665, src/config/consensus.rs line 508) -/

/-- A lower case hexadecimal digit. -/
def hexLow (n : Nat) : Char := if n < 10 then Char.ofNat (48 + n) else Char.ofNat (87 + n)

/-- `format_escaped_str_contents` (`ESCAPE`). -/
def escOf (c : Char) : Str :=
  if c = '"' then ['\\', '"']
  else if c = '\\' then ['\\', '\\']
  else if c = Char.ofNat 8 then ['\\', 'b']
  else if c = '\t' then ['\\', 't']
  else if c = '\n' then ['\\', 'n']
  else if c = Char.ofNat 12 then ['\\', 'f']
  else if c = '\r' then ['\\', 'r']
  else if c.toNat < 0x20 then ['\\', 'u', '0', '0', hexLow (c.toNat / 16), hexLow (c.toNat % 16)]
  else [c]

/-- `format_escaped_str`. -/
def quote (s : Str) : Str := '"' :: s.flatMap escOf ++ ['"']

/-- A signed integer (`itoa`). -/
def intText (n : Int) : Str := if n < 0 then '-' :: decimal n.natAbs else decimal n.natAbs

/-- `PrettyFormatter`: a new line and two blanks for every open array or object. -/
def newLine (ind : Nat) : Str := '\n' :: List.replicate (2 * ind) ' '

mutual
/-- `PrettyFormatter`: a value. No floating point number is ever written by the code; its text here is arbitrary. -/
def jsonText : Json → Nat → Str
  | .null, _ => ['n', 'u', 'l', 'l']
  | .bool b, _ => if b then ['t', 'r', 'u', 'e'] else ['f', 'a', 'l', 's', 'e']
  | .num n, _ => intText n
  | .float, _ => ['0', '.', '0']
  | .str s, _ => quote s
  | .arr l, ind => '[' :: elemsText l true (ind + 1) ++ (if l.isEmpty then [] else newLine ind) ++ [']']
  | .obj l, ind => '{' :: membersText l true (ind + 1) ++ (if l.isEmpty then [] else newLine ind) ++ ['}']

/-- `begin_array_value`: the elements of an array; all but the first follow a comma. -/
def elemsText : List Json → Bool → Nat → Str
  | [], _, _ => []
  | j :: l, first, ind => (if first then [] else [',']) ++ newLine ind ++ jsonText j ind ++ elemsText l false ind

/-- `begin_object_key`, `begin_object_value`: the members of an object. -/
def membersText : List (Str × Json) → Bool → Nat → Str
  | [], _, _ => []
  | e :: l, first, ind =>
    (if first then [] else [',']) ++ newLine ind ++ memberText e ind ++ membersText l false ind

/-- One member. -/
def memberText : Str × Json → Nat → Str
  | (k, j), ind => quote k ++ [':', ' '] ++ jsonText j ind
end

/-- `serde_json`. -/
def serdeJson : JsonLib where
  parse := jsonParse
  print := fun j => jsonText j 0

end Verif.Config
