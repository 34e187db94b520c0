import Verif.Model.Base32
/-!
# Model of `src/data/basics/address.rs` and the text form in `src/crypto/hashable.rs`

An address is its 32 bytes. The checksum hash (SHA-512/256) is a parameter.
-/

namespace Verif.Address
open Verif

/-- `AddressError` (address.rs lines 16-24). -/
inductive AddressError where
  | invalidBase32
  | wrongLength
  | invalidChecksum
  deriving Repr, DecidableEq

/-- `Address::checksum` (lines 42-46): last four bytes of the hash; panics if the hash is shorter. -/
def checksum {ε : Type} (hash : Bytes → Bytes) (addr : Bytes) : Res ε Bytes :=
  let h := hash addr
  if 4 ≤ h.length then .ok (h.drop (h.length - 4)) else .panic

/-- `Display` (lines 59-71). `copy_from_slice` panics on a length mismatch. -/
def display {ε : Type} (hash : Bytes → Bytes) (addr : Bytes) : Res ε Bytes :=
  if addr.length = 32 then do
    let c ← checksum hash addr
    pure (Base32.encode (addr ++ c))
  else .panic

/-- `is_zero` (lines 54-56). -/
def isZero (addr : Bytes) : Bool := addr == List.replicate 32 0

/-- `FromStr::from_str` (lines 79-107). -/
def fromStr (hash : Bytes → Bytes) (s : Bytes) : Res AddressError Bytes :=
  match Base32.decode s with
  | none => .err .invalidBase32
  | some decoded =>
    if decoded.length < 32 then .err .wrongLength
    else do
      let short := decoded.take 32
      let incoming := decoded.drop (decoded.length - 4)
      let calculated ← checksum hash short
      if incoming ≠ calculated then .err .invalidChecksum
      else do
        let t ← display hash short
        if t ≠ s then .panic      -- unreachable!() (line 103)
        else .ok short

/-- `HashError` (hashable.rs lines 22-28). -/
inductive HashError where
  | invalidBase32
  | wrongLength (n : Nat)
  deriving Repr, DecidableEq

/-- `Display for CryptoHash` (hashable.rs lines 60-64). -/
def hashDisplay (h : Bytes) : Bytes := Base32.encode h

/-- `TryFrom<&str> for CryptoHash` (hashable.rs lines 71-77). -/
def hashFromStr (s : Bytes) : Res HashError Bytes :=
  match Base32.decode s with
  | none => .err .invalidBase32
  | some d => if d.length ≠ 32 then .err (.wrongLength d.length) else .ok d

/-- `CryptoHash::trim_to_u64` (hashable.rs lines 48-50): little-endian value of the first eight
bytes; slicing a shorter value panics. -/
def trimToU64 {ε : Type} (h : Bytes) : Res ε Nat :=
  if 8 ≤ h.length then .ok ((h.take 8).foldr (fun b acc => b.toNat + 256 * acc) 0) else .panic

end Verif.Address
