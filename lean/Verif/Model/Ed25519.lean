import Verif.Model.Curve25519
import Verif.Model.Account
import Verif.Model.Multisig
/-!
# Ed25519 signatures

What the repository uses of `ed25519-dalek` 1 (`Keypair::sign`, `PublicKey::verify`, `PublicKey::verify_strict`,
`Keypair::to_bytes` and the reading of keys), written from RFC 8032 and the documentation of the crate, whose source is not
part of the repository. The test vectors of the RFC are in `Validation/Vrf.lean`.
-/

namespace Verif.Sig
open Verif Verif.Edwards Verif.Vrf Verif.Curve Verif.Sha512

/-- `Scalar::from_hash`. -/
def hashScalar (b : Bytes) : Nat := leVal (sha512 b) % baseOrder

/-- The scalar of a secret key. -/
def scalarOf (seed : Bytes) : Nat := leVal (clamp ((sha512 seed).take 32))

/-- `PublicKey::from(&SecretKey)`. -/
def publicKey (seed : Bytes) : Bytes := Curve.compress (scalarOf seed • basePoint)

/-- `Keypair::sign` (used in multisig.rs line 126, ots.rs lines 127, 158, 175, 189 and 277). -/
def sign (seed msg : Bytes) : Bytes :=
  let r := hashScalar ((sha512 seed).drop 32 ++ msg)
  let rBytes := Curve.compress (r • basePoint)
  let k := hashScalar (rBytes ++ publicKey seed ++ msg)
  rBytes ++ leBytes 32 ((k * scalarOf seed + r) % baseOrder)

/-- `PublicKey::verify` (batch_verifier.rs line 57): the response is canonical and `R` is the encoding of `s·B - k·A`. A
public key that is no point cannot be constructed. -/
def verify (pk msg sig : Bytes) : Bool :=
  match decompress pk with
  | none => false
  | some a =>
    let s := leVal (sig.drop 32)
    let k := hashScalar (sig.take 32 ++ pk ++ msg)
    decide (sig.length = 64 ∧ s < baseOrder ∧ Curve.compress (s • basePoint - k • a) = sig.take 32)

/-- `EdwardsPoint::is_small_order`. -/
def smallOrder (P : Pt) : Bool := decide (8 • P = 0)

/-- `PublicKey::verify_strict` (ots.rs lines 331-339): `R` and the key must not have small order, and `R` is compared as a point. -/
def verifyStrict (pk msg sig : Bytes) : Bool :=
  match decompress pk, decompress (sig.take 32) with
  | some a, some r =>
    let s := leVal (sig.drop 32)
    let k := hashScalar (sig.take 32 ++ pk ++ msg)
    decide (sig.length = 64 ∧ s < baseOrder) && !smallOrder r && !smallOrder a && decide (s • basePoint - k • a = r)
  | _, _ => false

/-- Secret keys: 32 bytes. `Keypair` holds the public key beside it; for pairs that do not match see `Pair` below. -/
abbrev Seed : Type := { b : Bytes // b.length = 32 }

/-- The scheme as used by `BatchVerifier`. -/
def scheme : Multisig.Scheme := ⟨Seed, fun k => publicKey k.1, fun k => sign k.1, verify⟩

/-- The scheme as used by `OTS::verify`. -/
def strictScheme : Multisig.Scheme := ⟨Seed, fun k => publicKey k.1, fun k => sign k.1, verifyStrict⟩

/-- `Keypair::to_bytes`: the secret key and the public key. -/
def keypairBytes (k : Seed) : Bytes := k.1 ++ publicKey k.1

/-- `Keypair::from_bytes`, for pairs that match. -/
def keypairOf (b : Bytes) : Option Seed :=
  if h : b.length = 64 then
    if b.drop 32 = publicKey (b.take 32) then some ⟨b.take 32, by rw [List.length_take, h]; rfl⟩ else none
  else none

/-- Which keys and signatures can be read: a key is a point, the three highest bits of a signature are zero. -/
def lib (binAsSeq : Bool) : Codec.Lib where
  validPk b := decide (b.length = 32) && (decompress b).isSome
  validSig b := decide (b.length = 64 ∧ leVal (b.drop 32) < 2 ^ 253)
  binAsSeq := binAsSeq


/-! ## Key pairs with any two halves -/

/-- `Keypair` as the library holds it: 64 bytes, of which the last 32 must be a point; that they belong to the first 32 is not
checked (`Keypair::from_bytes`). -/
abbrev Pair : Type := { b : Bytes // b.length = 64 ∧ (decompress (b.drop 32)).isSome = true }

/-- `Keypair::sign` with the public key of the pair. -/
def pairSign (b msg : Bytes) : Bytes :=
  let r := hashScalar ((sha512 (b.take 32)).drop 32 ++ msg)
  let rBytes := Curve.compress (r • basePoint)
  let k := hashScalar (rBytes ++ b.drop 32 ++ msg)
  rBytes ++ leBytes 32 ((k * scalarOf (b.take 32) + r) % baseOrder)

/-- The scheme with such key pairs. -/
def pairScheme : Multisig.Scheme := ⟨Pair, fun k => k.1.drop 32, fun k => pairSign k.1, verify⟩

/-- `Keypair::from_bytes`. -/
def pairOf (b : Bytes) : Option Pair :=
  if h : b.length = 64 ∧ (decompress (b.drop 32)).isSome = true then some ⟨b, h⟩ else none

/-- The keys of Ed25519, as the library reads them. -/
def pairKeys (binAsSeq : Bool) : Account.Keys pairScheme := ⟨lib binAsSeq, Subtype.val, pairOf⟩

end Verif.Sig
