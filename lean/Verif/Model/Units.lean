import Verif.Base.Res
/-!
# Model of `src/data/basics/units.rs`

`Round` and `MicroAlgos` are wrappers around `u64` (lines 19, 25); they are
`Nat` here, values below `2^64`.
-/

namespace Verif.Units
open Verif

/-- `OTSIdentifier` (`src/crypto/ots.rs` lines 51-61): batch and offset, both `u64`. -/
structure OtsId where
  batch : Nat
  offset : Nat
  deriving Repr, DecidableEq

/-- Never-returned error type: the functions below only return or panic. -/
abbrev R := Res Empty

/-- `Round::ots_id` (`units.rs` lines 73-78); panics on a zero dilution (division by zero). -/
def otsId (round keyDilution : Nat) : R OtsId := do
  let b ← divU round keyDilution
  let o ← modU round keyDilution
  pure ⟨b, o⟩

/-- `Round::sub_capped` (`units.rs` lines 82-87). -/
def subCapped (self r : Nat) : Nat := if r < self then self - r else 0

/-- `Round::round_up_to_multiple_of` (`units.rs` lines 90-92), each arithmetic
operation with its overflow check. -/
def roundUp (self r : Nat) : R Nat := do
  let a ← addU64 self r
  let b ← subU a 1
  let c ← divU b r
  mulU64 c r

/-- `MicroAlgos::reward_units` (`units.rs` lines 38-40). -/
def rewardUnits (algos rewardUnit : Nat) : R Nat := divU algos rewardUnit

/-- `Add for MicroAlgos` / `Add for Round` (`units.rs` lines 59-61, 98-100). -/
def addAmount (a b : Nat) : R Nat := addU64 a b

end Verif.Units
