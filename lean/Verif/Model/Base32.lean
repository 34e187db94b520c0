import Verif.Base.Res
import Verif.Base.Bits
/-!
# `data_encoding::BASE32_NOPAD`

External crate (`data-encoding`), used in `src/data/basics/address.rs` and
`src/crypto/hashable.rs`. Modelled from its documentation: RFC 4648 alphabet
`A-Z2-7`, most significant bit first, no padding characters; the encoder fills
the last symbol with zero bits; the decoder rejects other symbols (lower case
included), lengths that leave five or more unused bits, and non-zero unused bits
(`check_trailing_bits`). Text is its UTF-8 bytes.
-/

namespace Verif.Base32
open Verif Verif.Bits

/-- Symbol of a 5-bit value. -/
def sym (v : Nat) : UInt8 := if v < 26 then UInt8.ofNat (65 + v) else UInt8.ofNat (50 + (v - 26))

/-- 5-bit value of a symbol. -/
def symVal (c : UInt8) : Option Nat :=
  if 65 ≤ c.toNat ∧ c.toNat ≤ 90 then some (c.toNat - 65)
  else if 50 ≤ c.toNat ∧ c.toNat ≤ 55 then some (c.toNat - 50 + 26)
  else none

/-- Bits of a byte string, most significant first. -/
def bytesToBits (bs : Bytes) : List Bool := bs.flatMap (fun b => natBits 8 b.toNat)

/-- Cut a bit string into symbols, filling the last one with zeros. -/
def enc5 : List Bool → Bytes
  | [] => []
  | b :: bs =>
    sym (bitsVal ((b :: bs).take 5 ++ List.replicate (5 - (b :: bs).length) false))
      :: enc5 ((b :: bs).drop 5)
termination_by l => l.length
decreasing_by simp; omega

/-- `BASE32_NOPAD.encode`. -/
def encode (bs : Bytes) : Bytes := enc5 (bytesToBits bs)

/-- Bits of a string of symbols; `none` if some symbol is invalid. -/
def symBits : Bytes → Option (List Bool)
  | [] => some []
  | c :: cs =>
    match symVal c, symBits cs with
    | some v, some bs => some (natBits 5 v ++ bs)
    | _, _ => none

/-- Cut a bit string into bytes; the remainder must be shorter than a symbol and zero. -/
def dec8 (l : List Bool) : Option Bytes :=
  if h : l.length < 8 then
    if l.length < 5 ∧ l.all (! ·) then some [] else none
  else
    match dec8 (l.drop 8) with
    | some bs => some (UInt8.ofNat (bitsVal (l.take 8)) :: bs)
    | none => none
termination_by l.length
decreasing_by simp; omega

/-- `BASE32_NOPAD.decode`. -/
def decode (s : Bytes) : Option Bytes :=
  match symBits s with
  | some l => dec8 l
  | none => none

end Verif.Base32
