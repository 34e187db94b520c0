import Verif.Base.Res
import Mathlib.Algebra.Group.Basic
/-!
# Model of `src/crypto/vrf.rs`

The curve (from `curve25519-dalek`) is a parameter: a commutative group with a base point, the order `l` of
the prime subgroup, a point compression, a decompression and the Elligator map. Scalars are natural numbers;
`Scalar` arithmetic reduces modulo `l`. SHA-512 is a parameter.
-/

namespace Verif.Vrf
open Verif

/-- Little-endian value of a byte string. -/
def leVal : Bytes → Nat
  | [] => 0
  | b :: bs => b.toNat + 256 * leVal bs

/-- Little-endian encoding in `len` bytes. -/
def leBytes : Nat → Nat → Bytes
  | 0, _ => []
  | len + 1, n => UInt8.ofNat n :: leBytes len (n / 256)

/-- The external curve and hash. -/
structure Curve (G : Type) where
  base : G
  l : Nat
  compress : G → Bytes
  decompress : Bytes → Option G
  /-- `EdwardsPoint::hash_from_bytes` with the digest that copies its 64 input bytes. -/
  elligator : Bytes → G
  sha512 : Bytes → Bytes

variable {G : Type} [AddCommGroup G]

/-- `VrfKeypair` (lines 29-33). -/
structure Keypair where
  priv : Bytes
  pub : Bytes

/-- `VrfError` (lines 45-62), the one that can be raised. -/
inductive VrfError where
  | invalidProof
  deriving Repr, DecidableEq

/-- Clear and set the bits of the first half of an expanded secret key (`ed25519-dalek`). -/
def clamp (b : Bytes) : Bytes :=
  (b.modify 0 (· &&& 248)).modify 31 (fun x => (x &&& 63) ||| 64)

/-- The secret scalar `x` (lines 91-92): not reduced modulo `l`. -/
def secretScalar (C : Curve G) (seed : Bytes) : Nat := leVal (clamp ((C.sha512 seed).take 32))

/-- `VrfKeypair::from_seed` (lines 66-73). -/
def fromSeed (C : Curve G) (seed : Bytes) : Keypair :=
  ⟨seed, C.compress (secretScalar C seed • C.base)⟩

/-- `hash_to_curve` (lines 253-262). -/
def hashToCurve (C : Curve G) (pk : Bytes) (msg : Bytes) : G :=
  C.elligator ((C.sha512 ([4] ++ [1] ++ pk ++ msg)).modify 31 (· &&& 0x7F))

/-- `gen_nonce` (lines 266-272). -/
def genNonce (C : Curve G) (sk data : Bytes) : Nat :=
  leVal (C.sha512 ((C.sha512 sk).drop 32 ++ data)) % C.l

/-- `hash_points` (lines 276-286). -/
def hashPoints (C : Curve G) (points : List G) : Nat :=
  leVal ((C.sha512 ([4] ++ [2] ++ points.flatMap C.compress)).take 16 ++ List.replicate 16 0) % C.l

/-- `VrfKeypair::prove_bytes` (lines 83-117). -/
def proveBytes (C : Curve G) (kp : Keypair) (msg : Bytes) : Bytes :=
  let h := hashToCurve C kp.pub msg
  let hStr := C.compress h
  let x := secretScalar C kp.priv
  let gamma := x • h
  let k := genNonce C kp.priv hStr
  let c := hashPoints C [h, gamma, k • C.base, k • h]
  let s := (k + c * x) % C.l
  C.compress gamma ++ (leBytes 32 c).take 16 ++ leBytes 32 s

/-- `Scalar::from_canonical_bytes`. -/
def fromCanonical (C : Curve G) (b : Bytes) : Option Nat := if leVal b < C.l then some (leVal b) else none

/-- `VrfProof::decode` (lines 171-178); the proof is 80 bytes by its type. -/
def decodeProof (C : Curve G) (proof : Bytes) : Option (G × Nat × Nat) := do
  let gamma ← C.decompress (proof.take 32)
  let c ← fromCanonical C ((proof.drop 32).take 16 ++ List.replicate 16 0)
  let s ← fromCanonical C ((proof.drop 48).take 32)
  pure (gamma, c, s)

/-- `VrfProof::to_output` (lines 182-188). -/
def toOutput (C : Curve G) (proof : Bytes) : Res VrfError Bytes :=
  match decodeProof C proof with
  | none => .panic
  | some (gamma, _, _) => .ok (C.sha512 ([4] ++ [3] ++ C.compress (8 • gamma)))

/-- `VrfPublicKey::verify_bytes` (lines 141-161) with `to_point` (lines 165-169). -/
def verifyBytes (C : Curve G) (pk proof msg : Bytes) : Res VrfError Bytes :=
  match decodeProof C proof with
  | none => .err .invalidProof
  | some (gamma, c, s) =>
    let h := hashToCurve C pk msg
    match C.decompress pk with
    | none => .panic
    | some y =>
      let u := s • C.base - c • y
      let v := s • h - c • gamma
      if hashPoints C [h, gamma, u, v] = c then toOutput C proof else .err .invalidProof

end Verif.Vrf
