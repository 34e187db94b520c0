import Verif.Model.Messages
import Verif.Model.Algokey
import Verif.Model.Teal
import Verif.Model.Units
/-!
# Model of the texts of values

The `Display` implementations that are not modelled beside their types, and the standard output of the `algokey part`
commands. Text is its UTF-8 bytes.
-/

namespace Verif.Texts
open Verif Verif.Messages

/-- A symbol of `data_encoding::BASE64` (external crate; RFC 4648, `A-Z a-z 0-9 + /`). -/
def b64Sym (v : Nat) : UInt8 :=
  if v < 26 then UInt8.ofNat (65 + v)
  else if v < 52 then UInt8.ofNat (97 + (v - 26))
  else if v < 62 then UInt8.ofNat (48 + (v - 52))
  else if v = 62 then 43 else 47

/-- `BASE64.encode` (external crate): three bytes are four symbols; the last group is filled with zero bits and padded
with `=`. -/
def base64 : Bytes → Bytes
  | [] => []
  | [a] => [b64Sym (a.toNat / 4), b64Sym (a.toNat % 4 * 16), 61, 61]
  | [a, b] => [b64Sym (a.toNat / 4), b64Sym (a.toNat % 4 * 16 + b.toNat / 16), b64Sym (b.toNat % 16 * 4), 61]
  | a :: b :: c :: r =>
    b64Sym (a.toNat / 4) :: b64Sym (a.toNat % 4 * 16 + b.toNat / 16) ::
      b64Sym (b.toNat % 16 * 4 + c.toNat / 64) :: b64Sym (c.toNat % 64) :: base64 r

/-- A symbol of `data_encoding::HEXLOWER` (external crate). -/
def hexSym (v : Nat) : UInt8 := if v < 10 then UInt8.ofNat (48 + v) else UInt8.ofNat (97 + (v - 10))

/-- `HEXLOWER.encode` (external crate). -/
def hexLower (b : Bytes) : Bytes := b.flatMap fun x => [hexSym (x.toNat / 16), hexSym (x.toNat % 16)]

/-- `Display for VrfPublicKey` (src/crypto/vrf.rs lines 243-247). -/
def vrfKeyText (pk : Bytes) : Bytes := base64 pk

/-- `Display for MicroAlgos` (src/data/basics/units.rs lines 50-54). -/
def microAlgosText (a : Nat) : Bytes := microPrefix ++ num a

/-- `Display for Round` (src/data/basics/units.rs lines 64-68). -/
def roundText (r : Nat) : Bytes := num r

/-- `Display for TxID` (src/data/transactions/transaction.rs lines 21-25). -/
def txIdText (id : Bytes) : Bytes := Address.hashDisplay id

/-- `TryFrom<&str> for TxID` (src/data/transactions/transaction.rs lines 27-33). -/
def txIdOfText (s : Bytes) : Res Address.HashError Bytes := Address.hashFromStr s

/-- `Display for TealType` (src/data/basics/teal.rs lines 174-181). -/
def tealTypeText : Teal.TealType → Bytes
  | .bytes => asc ['b']
  | .uint => asc ['u']

/-- `Display for TealValue` (src/data/basics/teal.rs lines 226-233). -/
def tealValueText (v : Teal.TealValue) : Bytes :=
  match v.tealType with
  | .bytes => hexLower v.bytes
  | .uint => num v.uint

/-- `#[error]` of `MultisigError` (src/crypto/multisig.rs lines 36-55). -/
def multisigText : Multisig.MultisigError → Bytes
  | .unknownVersion v => asc ['u', 'n', 'k', 'n', 'o', 'w', 'n', ' ', 'v', 'e', 'r', 's', 'i', 'o', 'n', ' '] ++ num v.toNat
  | .invalidThreshold => asc ['i', 'n', 'v', 'a', 'l', 'i', 'd', ' ', 't', 'h', 'r', 'e', 's', 'h', 'o', 'l', 'd']
  | .invalidSignature => asc ['a', 't', ' ', 'l', 'e', 'a', 's', 't', ' ', 'o', 'n', 'e', ' ', 's', 'i', 'g', 'n', 'a',
      't', 'u', 'r', 'e', ' ', 'w', 'a', 's', ' ', 'i', 'n', 'v', 'a', 'l', 'i', 'd']
  | .invalidAddress => asc ['i', 'n', 'v', 'a', 'l', 'i', 'd', ' ', 'a', 'd', 'd', 'r', 'e', 's', 's']
  | .invalidNumberOfSignatures => asc ['i', 'n', 'v', 'a', 'l', 'i', 'd', ' ', 'n', 'u', 'm', 'b', 'e', 'r', ' ', 'o',
      'f', ' ', 's', 'i', 'g', 'n', 'a', 't', 'u', 'r', 'e', 's', ' ', 'p', 'r', 'o', 'v', 'i', 'd', 'e', 'd']
  | .keyNotExists => asc ['k', 'e', 'y', ' ', 'd', 'o', 'e', 's', ' ', 'n', 'o', 't', ' ', 'e', 'x', 'i', 's', 't']
  | .thresholdsDontMatch a b => asc ['t', 'h', 'r', 'e', 's', 'h', 'o', 'l', 'd', 's', ' ', 'd', 'o', 'n', '\'', 't', ' ',
      'm', 'a', 't', 'c', 'h', ':', ' '] ++ num a.toNat ++ asc [' ', '!', '=', ' '] ++ num b.toNat
  | .versionsDontMatch a b => asc ['v', 'e', 'r', 's', 'i', 'o', 'n', 's', ' ', 'd', 'o', 'n', '\'', 't', ' ',
      'm', 'a', 't', 'c', 'h', ':', ' '] ++ num a.toNat ++ asc [' ', '!', '=', ' '] ++ num b.toNat
  | .keysDontMatch => asc ['p', 'u', 'b', 'l', 'i', 'c', ' ', 'k', 'e', 'y', ' ', 'l', 'i', 's', 't', 's', ' ', 'd',
      'o', 'n', '\'', 't', ' ', 'm', 'a', 't', 'c', 'h']
  | .invalidDuplicates => asc ['i', 'n', 'v', 'a', 'l', 'i', 'd', ' ', 'd', 'u', 'p', 'l', 'i', 'c', 'a', 't', 'e', 's']

/-- The end of a line (`println!`). -/
def eol : Bytes := [10]

/-- The standard output of `print_participation_key` (src/bin/algokey/part.rs lines 140-150). -/
def infoText {ε : Type} (hash : Bytes → Bytes) (i : Algokey.Info) : Res ε Bytes := do
  let parent ← Address.display hash i.parent
  pure
    (asc ['P', 'a', 'r', 'e', 'n', 't', ' ', 'a', 'd', 'd', 'r', 'e', 's', 's', ':', ' '] ++ (parent ++ (eol ++
    (asc ['V', 'R', 'F', ' ', 'p', 'u', 'b', 'l', 'i', 'c', ' ', 'k', 'e', 'y', ':', ' '] ++ (vrfKeyText i.vrf ++ (eol ++
    (asc ['V', 'o', 't', 'i', 'n', 'g', ' ', 'p', 'u', 'b', ' ', 'k', 'e', 'y', ':', ' '] ++ (base64 i.voting ++ (eol ++
    (asc ['F', 'i', 'r', 's', 't', ' ', 'v', 'a', 'l', 'i', 'd', ':', ' ', ' ', ' ', ' '] ++ (roundText i.first ++ (eol ++
    (asc ['L', 'a', 's', 't', ' ', 'v', 'a', 'l', 'i', 'd', ':', ' ', ' ', ' ', ' ', ' '] ++ (roundText i.last ++ (eol ++
    (asc ['K', 'e', 'y', ' ', 'd', 'i', 'l', 'u', 't', 'i', 'o', 'n', ':', ' ', ' ', ' '] ++ (num i.dilution ++ (eol ++
    (asc ['F', 'i', 'r', 's', 't', ' ', 'b', 'a', 't', 'c', 'h', ':', ' ', ' ', ' ', ' '] ++ (num i.firstBatch ++ (eol ++
    (asc ['F', 'i', 'r', 's', 't', ' ', 'o', 'f', 'f', 's', 'e', 't', ':', ' ', ' ', ' '] ++ (num i.firstOffset ++ eol
    )))))))))))))))))))))))

end Verif.Texts
