import Mathlib.Data.Int.Log
import Mathlib.Data.Rat.Floor
import Verif.Model.Committee
/-!
# Double precision in `src/data/committee/sortition.rs`

The operations on `f64` that the sortition uses, for numbers that are not negative. The numbers that occur are zero or
between 2^-256 and 2^65, far from the ends of the range of exponents, so exponents are not bounded here. The distribution
function of the `statrs` crate (`Binomial::cdf`, an incomplete beta function) stays a parameter.
-/

namespace Verif.Double
open Verif Verif.Committee

/-- The nearest whole number, the even one of two that are equally near. -/
def roundEven (x : ℚ) : ℤ :=
  if x - ⌊x⌋ < 1 / 2 then ⌊x⌋
  else if 1 / 2 < x - ⌊x⌋ then ⌊x⌋ + 1
  else if ⌊x⌋ % 2 = 0 then ⌊x⌋
  else ⌊x⌋ + 1

/-- The distance of the doubles around a number: 53 significant bits. -/
def ulp (q : ℚ) : ℚ := 2 ^ (Int.log 2 q - 52)

/-- Rounding to a double (IEEE 754, to nearest, ties to even). -/
def rnd (q : ℚ) : ℚ := roundEven (q / ulp q) * ulp q

/-- An `f64` that is not negative. -/
inductive Dbl where
  | num (q : ℚ)
  | inf
  | nan
  deriving DecidableEq

/-- `u64 as f64`, as in credential.rs line 119 and sortition.rs line 26. -/
def ofU64 (n : Nat) : Dbl := .num (rnd n)

/-- `/` (sortition.rs line 26). -/
def div : Dbl → Dbl → Dbl
  | .num a, .num b => if b = 0 then (if a = 0 then .nan else .inf) else .num (rnd (a / b))
  | .num _, .inf => .num 0
  | .inf, .num _ => .inf
  | _, _ => .nan

/-- `>=` (sortition.rs line 45); false if one side is not a number. -/
def ge : Dbl → Dbl → Bool
  | .num a, .num b => decide (b ≤ a)
  | .inf, .num _ => true
  | .inf, .inf => true
  | _, _ => false

/-- The condition under which `Binomial::new` (sortition.rs line 42) accepts a probability. -/
def isProb : Dbl → Bool
  | .num p => decide (0 ≤ p ∧ p ≤ 1)
  | _ => false

/-- The sortition in double precision. `BigRational::to_f64` (sortition.rs line 36) rounds the quotient. -/
def doubles (cdf : Dbl → Nat → Nat → Dbl) : Floats Dbl where
  ofU64 := ofU64
  div := div
  ratio t := .num (rnd (t / ((2 ^ 256 - 1 : Nat) : ℚ)))
  valid p _ := isProb p
  cdf := cdf
  ge := ge

end Verif.Double
