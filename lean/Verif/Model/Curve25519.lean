import Verif.Curve.Ed25519
import Verif.Model.Sha512
import Verif.Model.Vrf
/-!
# Points of Curve25519 as bytes, and the Elligator map

What `vrf.rs` uses of `curve25519-dalek` (`EdwardsPoint::compress`, `CompressedEdwardsY::decompress`,
`EdwardsPoint::hash_from_bytes`), written from RFC 8032 and the documentation of the crate, whose source is not part of the
repository. The VRF test vectors of the repository are run on these definitions in `Validation/Vrf.lean`.
-/

namespace Verif.Curve
open Verif Verif.Edwards Verif.Vrf

/-- A square root: `a^((p+3)/8)`, or `√-1` times this. -/
def sqrt? (a : Fp) : Option Fp :=
  let r : Fp := (powMod fieldSize 256 a.val ((fieldSize + 3) / 8) : Nat)
  if r * r = a then some r else if r * iRoot * (r * iRoot) = a then some (r * iRoot) else none

/-- `EdwardsPoint::compress`: `y`, with the last digit of `x` as the highest bit. -/
def compress (P : Pt) : Bytes := leBytes 32 (P.y.val + 2 ^ 255 * parity P.x)

/-- The point with the given `y` whose `x = ±√((y²-1)/(d·y²+1))` has the last digit `s`, unless it is zero. -/
def withY (y : Fp) (s : Nat) : Option Pt :=
  match sqrt? ((y ^ 2 - 1) / (dCoeff * y ^ 2 + 1)) with
  | none => none
  | some r =>
    let x := if parity r = s then r else -r
    if h : y ^ 2 - x ^ 2 = 1 + dCoeff * x ^ 2 * y ^ 2 then some ⟨x, y, h⟩ else none

/-- `CompressedEdwardsY::decompress`: `y` in the lower 255 bits is reduced, the highest bit is the last digit of `x`. -/
def decompress (b : Bytes) : Option Pt := withY ((leVal b % 2 ^ 255 : Nat) : Fp) (leVal b / 2 ^ 255 % 2)

/-- The coefficient of the Montgomery form `v² = u³ + A·u² + u`. -/
def montA : Fp := 486662

/-- The choice in `elligator_encode`: the first candidate if it is on the curve, else the second. -/
def elligatorChoice (e : Fp) : Fp :=
  match sqrt? (e * (e ^ 2 + montA * e + 1)) with
  | some _ => e
  | none => -(e + montA)

/-- `elligator_encode`: the `u` of a point of the Montgomery form. -/
def elligatorU (r : Fp) : Fp := elligatorChoice (-montA / (1 + 2 * r ^ 2))

/-- `MontgomeryPoint::to_edwards`: `y = (u-1)/(u+1)`. -/
def toEdwards (u : Fp) (s : Nat) : Option Pt :=
  if u = -1 then none else decompress (leBytes 32 (((u - 1) / (u + 1)).val + 2 ^ 255 * s))

/-- `EdwardsPoint::hash_from_bytes` before the multiplication by the cofactor: the first 32 bytes are a number of the
field and a sign bit. -/
def elligatorPoint (b : Bytes) : Option Pt :=
  toEdwards (elligatorU ((leVal (b.take 32) % 2 ^ 255 : Nat) : Fp)) (leVal (b.take 32) / 2 ^ 255 % 2)

/-- `EdwardsPoint::hash_from_bytes`. The library crashes where `elligatorPoint` has no value; that this never happens is
`C163_hash_to_curve`. -/
def elligator (b : Bytes) : Pt :=
  match elligatorPoint b with
  | none => 0
  | some P => 8 • P

/-- The curve and the hash that vrf.rs uses (lines 13-22). -/
def ed25519 : Vrf.Curve Pt := ⟨basePoint, baseOrder, compress, decompress, elligator, Sha512.sha512⟩

end Verif.Curve
