import Verif.Base.Res
/-!
# Key file names (src/config/keyfile.rs)

Strings are lists of characters. `format!`, `split`, `parse::<u64>`, `trim_end_matches` and `replace` follow the
documentation of the standard library.
-/

namespace Verif.Config
open Verif

/-- A string. -/
abbrev Str := List Char

/-- `str::split(c)`: the parts between occurrences of `c`. -/
def splitOn (c : Char) : Str → List Str
  | [] => [[]]
  | x :: s =>
    if x = c then [] :: splitOn c s
    else match splitOn c s with
      | p :: ps => (x :: p) :: ps
      | [] => [[x]]

/-- A decimal digit. -/
def digitChar (d : Nat) : Char := Char.ofNat (48 + d)

/-- `{}` of a `u64`. -/
def decimal (n : Nat) : Str := if n < 10 then [digitChar n] else decimal (n / 10) ++ [digitChar (n % 10)]
termination_by n

/-- `char::to_digit(10)`. -/
def toDigit (c : Char) : Option Nat := if 48 ≤ c.toNat ∧ c.toNat ≤ 57 then some (c.toNat - 48) else none

/-- The digit loop of `u64::from_str`: `checked_mul(10)` and `checked_add`. -/
def parseDigits (acc : Nat) : Str → Option Nat
  | [] => some acc
  | c :: s =>
    match toDigit c with
    | none => none
    | some d => if acc * 10 < u64Lim ∧ acc * 10 + d < u64Lim then parseDigits (acc * 10 + d) s else none

/-- `parse::<u64>`: a leading `+` is allowed; the empty string and a lone sign are errors. -/
def parseU64 : Str → Option Nat
  | [] => none
  | c :: s => if c = '+' then (if s = [] then none else parseDigits 0 s) else parseDigits 0 (c :: s)

/-- `trim_end_matches(suffix)`: removes the suffix as often as it occurs. -/
def trimEnd (suffix : Str) (s : Str) : Str :=
  if h : suffix ≠ [] ∧ suffix <:+ s then trimEnd suffix (s.take (s.length - suffix.length)) else s
termination_by s.length
decreasing_by
  have h1 := List.IsSuffix.length_le h.2
  have h2 := List.length_pos_iff.2 h.1
  rw [List.length_take]
  omega

/-- `".rootkey"`. -/
def rootSuffix : Str := ['.', 'r', 'o', 'o', 't', 'k', 'e', 'y']

/-- `".partkey"`. -/
def partSuffix : Str := ['.', 'p', 'a', 'r', 't', 'k', 'e', 'y']

/-- `root_key_filename` (lines 7-9). -/
def rootKeyFilename (account : Str) : Str := account ++ rootSuffix

/-- `format!(".{}.{}.partkey", first, last)` (line 59). -/
def intervalSuffix (first last : Nat) : Str := '.' :: decimal first ++ '.' :: decimal last ++ partSuffix

/-- `part_key_filename` (lines 12-18). -/
def partKeyFilename (account : Str) (first last : Nat) : Str :=
  account ++ '.' :: decimal first ++ '.' :: decimal last ++ partSuffix

/-- `extract_part_valid_interval` (lines 66-80). -/
def extractInterval (filename : Str) : Option (Nat × Nat) :=
  let parts := splitOn '.' filename
  let np := parts.length
  if np < 4 then none
  else
    match parseU64 (parts.getD (np - 3) []), parseU64 (parts.getD (np - 2) []) with
    | some f, some l => if f ≤ l then some (f, l) else none
    | _, _ => none

/-- `matches_root_key_filename` (lines 21-23). -/
def matchesRootKeyFilename (account filename : Str) : Bool := rootKeyFilename account = filename

/-- `matches_part_key_filename` (lines 26-32). -/
def matchesPartKeyFilename (account filename : Str) : Bool :=
  match extractInterval filename with
  | some (f, l) => partKeyFilename account f l = filename
  | none => false

/-- `account_name_from_root_key_filename` (lines 49-51). -/
def accountFromRoot (filename : Str) : Str := trimEnd rootSuffix filename

/-- `account_name_from_part_key_filename` (lines 56-63). -/
def accountFromPart (filename : Str) : Str :=
  match extractInterval filename with
  | some (f, l) => trimEnd (intervalSuffix f l) filename
  | none => filename

/-- `is_root_key_filename` (lines 35-38); the source calls the function for participation keys here. -/
def isRootKeyFilename (filename : Str) : Bool := matchesRootKeyFilename (accountFromPart filename) filename

/-- `is_part_key_filename` (lines 41-44). -/
def isPartKeyFilename (filename : Str) : Bool := matchesPartKeyFilename (accountFromPart filename) filename

end Verif.Config
