import Verif.Model.Teal
import Verif.Model.HashId
import Verif.Model.Units
/-!
# Model of `src/data/basics/user_balance.rs`

Of `AccountData` the fields that its methods read or write; the maps (assets, applications, opted-in
applications) are represented by their sizes, which is all `min_balance` looks at.
-/

namespace Verif.Balance
open Verif Verif.Consensus Verif.Teal Verif.HashId

/-- `Status` (lines 16-30). -/
inductive Status where
  | offline
  | online
  | notParticipating
  deriving Repr, DecidableEq

/-- `Display for Status` (lines 65-73). -/
def Status.str : Status → List Char
  | .offline => ['O', 'f', 'f', 'l', 'i', 'n', 'e']
  | .online => ['O', 'n', 'l', 'i', 'n', 'e']
  | .notParticipating => ['N', 'o', 't', ' ', 'P', 'a', 'r', 't', 'i', 'c', 'i', 'p', 'a', 't', 'i', 'n', 'g']

/-- `TryFrom<&str> for Status` (lines 76-87). -/
def Status.ofStr (s : List Char) : Option Status :=
  if s = ['O', 'f', 'f', 'l', 'i', 'n', 'e'] then some .offline
  else if s = ['O', 'n', 'l', 'i', 'n', 'e'] then some .online
  else if s = ['N', 'o', 't', ' ', 'P', 'a', 'r', 't', 'i', 'c', 'i', 'p', 'a', 't', 'i', 'n', 'g'] then
    some .notParticipating
  else none

/-- `AccountData` (lines 93-198). -/
structure Account where
  status : Status
  microAlgos : Nat
  rewardsBase : Nat
  rewarded : Nat
  voteKeyDilution : Nat
  assets : Nat
  appParams : Nat
  appLocalStates : Nat
  totalAppSchema : Schema
  totalExtraAppPages : Nat
  deriving Repr, DecidableEq

/-- `AccountData::pending_rewards` (lines 380-391). -/
def pendingRewards (proto : Params) (microAlgos rewardsBase rewardsLevel : Nat) : Res Unit Nat := do
  let units ← divU microAlgos proto.rewardUnit
  let delta ← subU rewardsLevel rewardsBase
  mulU64 units delta

/-- `AccountData::with_updated_rewards` (lines 395-413). -/
def withUpdatedRewards (ad : Account) (proto : Params) (level : Nat) : Res Unit Account :=
  if ad.status ≠ .notParticipating then do
    let units ← divU ad.microAlgos proto.rewardUnit
    let delta ← subU level ad.rewardsBase
    let rewards ← mulU64 units delta
    let algos ← addU64 ad.microAlgos rewards
    pure { ad with microAlgos := algos, rewardsBase := level, rewarded := (ad.rewarded + rewards) % u64Lim }
  else pure ad

/-- `AccountData::money` (lines 369-376). -/
def money (ad : Account) (proto : Params) (level : Nat) : Res Unit (Nat × Nat) := do
  let e ← withUpdatedRewards ad proto level
  pure (e.microAlgos, e.rewarded)

/-- `AccountData::min_balance` (lines 417-450). -/
def minBalance (ad : Account) (proto : Params) : Nat :=
  let m := proto.minBalance
  let m := satAdd64 m (satMul64 proto.minBalance ad.assets)
  let m := satAdd64 m (satMul64 proto.appFlatParamsMinBalance ad.appParams)
  let m := satAdd64 m (satMul64 proto.appFlatOptInMinBalance ad.appLocalStates)
  let m := satAdd64 m (ad.totalAppSchema.minBalance proto)
  satAdd64 m (satMul64 proto.appFlatParamsMinBalance ad.totalExtraAppPages)

/-- `AccountData::voting_stake` (lines 455-460). -/
def votingStake (ad : Account) : Nat :=
  match ad.status with
  | .online => ad.microAlgos
  | _ => 0

/-- `AccountData::key_dilution` (lines 463-468). -/
def keyDilution (ad : Account) (proto : Params) : Nat :=
  if ad.voteKeyDilution = 0 then proto.defaultKeyDilution else ad.voteKeyDilution

/-- `AccountData::normalized_online_balance` (lines 493-536). -/
def normalizedOnlineBalance (ad : Account) (proto : Params) : Res Unit Nat :=
  if ad.status ≠ .online then .ok 0
  else do
    let per ← addU64 ad.rewardsBase proto.rewardUnit
    match checkedMul64 ad.microAlgos proto.rewardUnit with
    | none => .panic
    | some norm => if per = 0 then .panic else .ok (norm / per)

/-- `u64::to_be_bytes`, `n` bytes. -/
def beBytes : Nat → Nat → Bytes
  | 0, _ => []
  | k + 1, n => beBytes k (n / 256) ++ [UInt8.ofNat n]

/-- `Hashable for AppIndex` and `AppIndex::address` (lines 344-355). -/
def appAddress (hash : Bytes → Bytes) (app : Nat) : Bytes := hash (hashRep ⟨.appIndex, beBytes 8 app⟩)

/-- `BalanceRecord` (lines 539-544). -/
structure BalanceRecord where
  addr : Bytes
  accountData : Account

/-- `Hashable for BalanceRecord` (lines 546-552): the body is empty. -/
def balanceRecordHashed (_ : BalanceRecord) : HashId × Bytes := (.balanceRecord, [])

end Verif.Balance
