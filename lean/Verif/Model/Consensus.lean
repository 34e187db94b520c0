import Verif.Base.Res
/-!
# Model of `src/protocol/consensus.rs` and `src/config/consensus.rs`

The parameters and the table of protocol versions are transcribed from the source line by line. Hash maps are
association lists; an operation on a map uses only `lookup`, `insert` and `remove`, and a loop over a map takes the
order of the list, so quantifying over lists quantifies over iteration orders.
-/

namespace Verif.Consensus
open Verif

/-- `ConsensusVersion` (`src/protocol/consensus.rs`). -/
inductive Version where
  | deprecatedV0
  | deprecatedV1
  | deprecatedV2
  | deprecatedV3
  | deprecatedV4
  | deprecatedV5
  | deprecatedV6
  | v7
  | v8
  | v9
  | v10
  | v11
  | v12
  | v13
  | v14
  | v15
  | v16
  | v17
  | v18
  | v19
  | v20
  | v21
  | v22
  | v23
  | v24
  | v25
  | v26
  | v27
  | v28
  | v29
  | v30
  | future
  deriving Repr, DecidableEq

/-- All versions, in source order. -/
def Version.all : List Version :=
  [.deprecatedV0, .deprecatedV1, .deprecatedV2, .deprecatedV3, .deprecatedV4, .deprecatedV5, .deprecatedV6, .v7, .v8, .v9, .v10, .v11, .v12, .v13, .v14, .v15, .v16, .v17, .v18, .v19, .v20, .v21, .v22, .v23, .v24, .v25, .v26, .v27, .v28, .v29, .v30, .future]

/-- `Display for ConsensusVersion`. -/
def Version.str : Version → List Char
  | .deprecatedV0 => ['v', '0']
  | .deprecatedV1 => ['v', '1']
  | .deprecatedV2 => ['v', '2']
  | .deprecatedV3 => ['v', '3']
  | .deprecatedV4 => ['v', '4']
  | .deprecatedV5 => ['v', '5']
  | .deprecatedV6 => ['v', '6']
  | .v7 => ['v', '7']
  | .v8 => ['v', '8']
  | .v9 => ['v', '9']
  | .v10 => ['v', '1', '0']
  | .v11 => ['v', '1', '1']
  | .v12 => ['v', '1', '2']
  | .v13 => ['h', 't', 't', 'p', 's', ':', '/', '/', 'g', 'i', 't', 'h', 'u', 'b', '.', 'c', 'o', 'm', '/', 'a', 'l', 'g', 'o', 'r', 'a', 'n', 'd', '/', 's', 'p', 'e', 'c', '/', 't', 'r', 'e', 'e', '/', '0', 'c', '8', 'a', '9', 'd', 'c', '4', '4', 'd', '7', '3', '6', '8', 'c', 'c', '2', '6', '6', 'd', '5', '4', '0', '7', 'b', '7', '9', 'f', 'b', '3', '3', '1', '1', 'f', '4', 'f', 'c', '7', '9', '5']
  | .v14 => ['h', 't', 't', 'p', 's', ':', '/', '/', 'g', 'i', 't', 'h', 'u', 'b', '.', 'c', 'o', 'm', '/', 'a', 'l', 'g', 'o', 'r', 'a', 'n', 'd', '/', 's', 'p', 'e', 'c', '/', 't', 'r', 'e', 'e', '/', '2', '5', '2', '6', 'b', '6', 'a', 'e', '0', '6', '2', 'b', '4', 'f', 'e', '5', 'e', '1', '6', '3', 'e', '0', '6', 'e', '4', '1', 'e', '1', 'd', '9', 'b', '9', '2', '1', '9', '1', '3', '5', 'a', '9']
  | .v15 => ['h', 't', 't', 'p', 's', ':', '/', '/', 'g', 'i', 't', 'h', 'u', 'b', '.', 'c', 'o', 'm', '/', 'a', 'l', 'g', 'o', 'r', 'a', 'n', 'd', '/', 's', 'p', 'e', 'c', '/', 't', 'r', 'e', 'e', '/', 'a', '2', '6', 'e', 'd', '7', '8', 'e', 'd', '8', 'f', '8', '3', '4', 'e', '2', 'b', '9', 'c', 'c', 'b', '6', 'e', 'b', '7', 'd', '3', 'e', 'e', '9', 'f', '6', '2', '9', 'a', '6', 'e', '6', '2', '2']
  | .v16 => ['h', 't', 't', 'p', 's', ':', '/', '/', 'g', 'i', 't', 'h', 'u', 'b', '.', 'c', 'o', 'm', '/', 'a', 'l', 'g', 'o', 'r', 'a', 'n', 'd', '/', 's', 'p', 'e', 'c', '/', 't', 'r', 'e', 'e', '/', '2', '2', '7', '2', '6', 'c', '9', 'd', 'c', 'd', '1', '2', 'd', '9', 'c', 'd', 'd', 'c', 'e', '4', 'a', '8', 'b', 'd', '7', 'e', '8', 'c', 'c', 'a', 'a', '7', '0', '7', 'f', '7', '4', '1', '0', '1']
  | .v17 => ['h', 't', 't', 'p', 's', ':', '/', '/', 'g', 'i', 't', 'h', 'u', 'b', '.', 'c', 'o', 'm', '/', 'a', 'l', 'g', 'o', 'r', 'a', 'n', 'd', 'f', 'o', 'u', 'n', 'd', 'a', 't', 'i', 'o', 'n', '/', 's', 'p', 'e', 'c', 's', '/', 't', 'r', 'e', 'e', '/', '5', '6', '1', '5', 'a', 'd', 'c', '3', '6', 'b', 'a', 'd', '6', '1', '0', 'c', '7', 'f', '1', '6', '5', 'f', 'a', '2', '9', '6', '7', 'f', '4', 'e', 'c', 'f', 'a', '7', '5', '1', '2', '5', 'f', '0']
  | .v18 => ['h', 't', 't', 'p', 's', ':', '/', '/', 'g', 'i', 't', 'h', 'u', 'b', '.', 'c', 'o', 'm', '/', 'a', 'l', 'g', 'o', 'r', 'a', 'n', 'd', 'f', 'o', 'u', 'n', 'd', 'a', 't', 'i', 'o', 'n', '/', 's', 'p', 'e', 'c', 's', '/', 't', 'r', 'e', 'e', '/', '6', 'c', '6', 'b', 'd', '6', '6', '8', 'b', 'e', '0', 'a', 'b', '1', '4', '0', '9', '8', 'e', '5', '1', 'b', '3', '7', 'e', '8', '0', '6', 'c', '5', '0', '9', 'f', '7', 'b', '7', 'e', '3', '1', 'f']
  | .v19 => ['h', 't', 't', 'p', 's', ':', '/', '/', 'g', 'i', 't', 'h', 'u', 'b', '.', 'c', 'o', 'm', '/', 'a', 'l', 'g', 'o', 'r', 'a', 'n', 'd', 'f', 'o', 'u', 'n', 'd', 'a', 't', 'i', 'o', 'n', '/', 's', 'p', 'e', 'c', 's', '/', 't', 'r', 'e', 'e', '/', '0', 'e', '1', '9', '6', 'e', '8', '2', 'b', 'f', 'd', '6', 'e', '3', '2', '7', '9', '9', '4', 'b', 'e', 'c', '3', '7', '3', 'c', '4', 'c', 'c', '8', '1', 'b', 'c', '8', '7', '8', 'e', 'f', '5', 'c']
  | .v20 => ['h', 't', 't', 'p', 's', ':', '/', '/', 'g', 'i', 't', 'h', 'u', 'b', '.', 'c', 'o', 'm', '/', 'a', 'l', 'g', 'o', 'r', 'a', 'n', 'd', 'f', 'o', 'u', 'n', 'd', 'a', 't', 'i', 'o', 'n', '/', 's', 'p', 'e', 'c', 's', '/', 't', 'r', 'e', 'e', '/', '4', 'a', '9', 'd', 'b', '6', 'a', '2', '5', '5', '9', '5', 'c', '6', 'f', 'd', '0', '9', '7', 'c', 'f', '9', 'c', 'c', '1', '3', '7', 'c', 'c', '8', '3', '0', '2', '7', '7', '8', '7', 'e', 'a', 'a']
  | .v21 => ['h', 't', 't', 'p', 's', ':', '/', '/', 'g', 'i', 't', 'h', 'u', 'b', '.', 'c', 'o', 'm', '/', 'a', 'l', 'g', 'o', 'r', 'a', 'n', 'd', 'f', 'o', 'u', 'n', 'd', 'a', 't', 'i', 'o', 'n', '/', 's', 'p', 'e', 'c', 's', '/', 't', 'r', 'e', 'e', '/', '8', '0', '9', '6', 'e', '2', 'd', 'f', '2', 'd', 'a', '7', '5', 'c', '3', '3', '3', '9', '9', '8', '6', '3', '1', '7', 'f', '9', 'a', 'b', 'e', '6', '9', 'd', '4', 'f', 'a', '8', '6', 'b', '4', 'b']
  | .v22 => ['h', 't', 't', 'p', 's', ':', '/', '/', 'g', 'i', 't', 'h', 'u', 'b', '.', 'c', 'o', 'm', '/', 'a', 'l', 'g', 'o', 'r', 'a', 'n', 'd', 'f', 'o', 'u', 'n', 'd', 'a', 't', 'i', 'o', 'n', '/', 's', 'p', 'e', 'c', 's', '/', 't', 'r', 'e', 'e', '/', '5', '7', '0', '1', '6', 'b', '9', '4', '2', 'f', '6', 'd', '9', '7', 'e', '6', 'd', '4', 'c', '0', '6', '8', '8', 'b', '3', '7', '3', 'b', 'b', '0', 'a', '2', 'f', 'c', '8', '5', 'a', '1', 'a', '2']
  | .v23 => ['h', 't', 't', 'p', 's', ':', '/', '/', 'g', 'i', 't', 'h', 'u', 'b', '.', 'c', 'o', 'm', '/', 'a', 'l', 'g', 'o', 'r', 'a', 'n', 'd', 'f', 'o', 'u', 'n', 'd', 'a', 't', 'i', 'o', 'n', '/', 's', 'p', 'e', 'c', 's', '/', 't', 'r', 'e', 'e', '/', 'e', '5', 'f', '5', '6', '5', '4', '2', '1', 'd', '7', '2', '0', 'c', '6', 'f', '7', '5', 'c', 'd', 'd', '1', '8', '6', 'f', '7', '0', '9', '8', '4', '9', '5', 'c', 'a', 'f', '9', '1', '0', '1', 'f']
  | .v24 => ['h', 't', 't', 'p', 's', ':', '/', '/', 'g', 'i', 't', 'h', 'u', 'b', '.', 'c', 'o', 'm', '/', 'a', 'l', 'g', 'o', 'r', 'a', 'n', 'd', 'f', 'o', 'u', 'n', 'd', 'a', 't', 'i', 'o', 'n', '/', 's', 'p', 'e', 'c', 's', '/', 't', 'r', 'e', 'e', '/', '3', 'a', '8', '3', 'c', '4', 'c', '7', '4', '3', 'f', '8', 'b', '1', '7', 'a', 'd', 'f', 'd', '7', '3', '9', '4', '4', 'b', '4', '3', '1', '9', 'c', '2', '5', '7', '2', '2', 'a', '6', '7', '8', '2']
  | .v25 => ['h', 't', 't', 'p', 's', ':', '/', '/', 'g', 'i', 't', 'h', 'u', 'b', '.', 'c', 'o', 'm', '/', 'a', 'l', 'g', 'o', 'r', 'a', 'n', 'd', 'f', 'o', 'u', 'n', 'd', 'a', 't', 'i', 'o', 'n', '/', 's', 'p', 'e', 'c', 's', '/', 't', 'r', 'e', 'e', '/', 'b', 'e', 'a', '1', '9', '2', '8', '9', 'b', 'f', '4', '1', '2', '1', '7', 'd', '2', 'c', '0', 'a', 'f', '3', '0', '5', '2', '2', 'f', 'a', '2', '2', '2', 'e', 'f', '1', '3', '6', '6', '4', '6', '6']
  | .v26 => ['h', 't', 't', 'p', 's', ':', '/', '/', 'g', 'i', 't', 'h', 'u', 'b', '.', 'c', 'o', 'm', '/', 'a', 'l', 'g', 'o', 'r', 'a', 'n', 'd', 'f', 'o', 'u', 'n', 'd', 'a', 't', 'i', 'o', 'n', '/', 's', 'p', 'e', 'c', 's', '/', 't', 'r', 'e', 'e', '/', 'a', 'c', '2', '2', '5', '5', 'd', '5', '8', '6', 'c', '4', '4', '7', '4', 'd', '4', 'e', 'b', 'c', 'f', '3', '8', '0', '9', 'a', 'c', 'c', 'c', 'b', '5', '9', 'b', '7', 'e', 'f', '3', '4', 'f', 'f']
  | .v27 => ['h', 't', 't', 'p', 's', ':', '/', '/', 'g', 'i', 't', 'h', 'u', 'b', '.', 'c', 'o', 'm', '/', 'a', 'l', 'g', 'o', 'r', 'a', 'n', 'd', 'f', 'o', 'u', 'n', 'd', 'a', 't', 'i', 'o', 'n', '/', 's', 'p', 'e', 'c', 's', '/', 't', 'r', 'e', 'e', '/', 'd', '0', '5', '0', 'b', '3', 'c', 'a', 'd', 'e', '6', 'd', '5', 'c', '6', '6', '4', 'd', 'f', '8', 'b', 'd', '7', '2', '9', 'b', 'f', '2', '1', '9', 'f', '1', '7', '9', '8', '1', '2', '5', '9', '5']
  | .v28 => ['h', 't', 't', 'p', 's', ':', '/', '/', 'g', 'i', 't', 'h', 'u', 'b', '.', 'c', 'o', 'm', '/', 'a', 'l', 'g', 'o', 'r', 'a', 'n', 'd', 'f', 'o', 'u', 'n', 'd', 'a', 't', 'i', 'o', 'n', '/', 's', 'p', 'e', 'c', 's', '/', 't', 'r', 'e', 'e', '/', '6', '5', 'b', '4', 'a', 'b', '3', '2', '6', '6', 'c', '5', '2', 'c', '5', '6', 'a', '0', 'f', 'a', '7', 'd', '5', '9', '1', '7', '5', '4', '8', '8', '7', 'd', '6', '8', 'f', 'a', 'a', 'd', '0', 'a']
  | .v29 => ['h', 't', 't', 'p', 's', ':', '/', '/', 'g', 'i', 't', 'h', 'u', 'b', '.', 'c', 'o', 'm', '/', 'a', 'l', 'g', 'o', 'r', 'a', 'n', 'd', 'f', 'o', 'u', 'n', 'd', 'a', 't', 'i', 'o', 'n', '/', 's', 'p', 'e', 'c', 's', '/', 't', 'r', 'e', 'e', '/', 'a', 'b', 'c', '5', '4', 'f', '7', '9', 'f', '9', 'a', 'd', '6', '7', '9', 'd', '2', 'd', '2', '2', 'f', '0', 'f', 'b', '9', '9', '0', '9', 'f', 'b', '0', '0', '5', 'c', '1', '6', 'f', '8', 'a', '1']
  | .v30 => ['h', 't', 't', 'p', 's', ':', '/', '/', 'g', 'i', 't', 'h', 'u', 'b', '.', 'c', 'o', 'm', '/', 'a', 'l', 'g', 'o', 'r', 'a', 'n', 'd', 'f', 'o', 'u', 'n', 'd', 'a', 't', 'i', 'o', 'n', '/', 's', 'p', 'e', 'c', 's', '/', 't', 'r', 'e', 'e', '/', 'b', 'c', '3', '6', '0', '0', '5', 'd', 'b', 'd', '7', '7', '6', 'e', '6', 'd', '1', 'e', 'a', 'f', '0', 'c', '5', '6', '0', '6', '1', '9', 'b', 'b', '1', '8', '3', '2', '1', '5', '6', '4', '5', 'c']
  | .future => ['f', 'u', 't', 'u', 'r', 'e']

/-- `PaysetCommitType` (`src/config/consensus.rs` lines 359-378). -/
inductive PaysetCommit where
  | unsupported
  | flat
  | merkle
  deriving Repr, DecidableEq

/-- `ConsensusParams` (`src/config/consensus.rs` lines 19-356), every field. Integers are `Nat` (`u64` or `u32` in the
source), durations are in nanoseconds, the map of approved upgrades is an association list. The defaults are those of
`#[derive(Default)]`. -/
structure Params where
  upgradeVoteRounds : Nat := 0
  upgradeThreshold : Nat := 0
  defaultUpgradeWaitRounds : Nat := 0
  minUpgradeWaitRounds : Nat := 0
  maxUpgradeWaitRounds : Nat := 0
  maxVersionStringLen : Nat := 0
  maxTxBytesPerBlock : Nat := 0
  maxTxNoteBytes : Nat := 0
  maxTxLife : Nat := 0
  approvedUpgrades : List (Version × Nat) := []
  supportGenesisHash : Bool := false
  requireGenesisHash : Bool := false
  defaultKeyDilution : Nat := 0
  minBalance : Nat := 0
  minTxFee : Nat := 0
  enableFeePooling : Bool := false
  enableAppCostPooling : Bool := false
  rewardUnit : Nat := 0
  rewardsRateRefreshInterval : Nat := 0
  seedLookback : Nat := 0
  seedRefreshInterval : Nat := 0
  maxBalLookback : Nat := 0
  numProposers : Nat := 0
  softCommitteeSize : Nat := 0
  softCommitteeThreshold : Nat := 0
  certCommitteeSize : Nat := 0
  certCommitteeThreshold : Nat := 0
  nextCommitteeSize : Nat := 0
  nextCommitteeThreshold : Nat := 0
  lateCommitteeSize : Nat := 0
  lateCommitteeThreshold : Nat := 0
  redoCommitteeSize : Nat := 0
  redoCommitteeThreshold : Nat := 0
  downCommitteeSize : Nat := 0
  downCommitteeThreshold : Nat := 0
  agreementFilterTimeout : Nat := 0
  agreementFilterTimeoutPeriod0 : Nat := 0
  fastRecoveryLambda : Nat := 0
  fastPartitionRecovery : Bool := false
  paysetCommit : PaysetCommit := .unsupported
  maxTimestampIncrement : Nat := 0
  supportSignedTxInBlock : Bool := false
  forceNonParticipatingFeeSink : Bool := false
  applyData : Bool := false
  rewardsInApplyData : Bool := false
  credentialDomainSeparationEnabled : Bool := false
  supportBecomeNonParticipatingTransactions : Bool := false
  pendingResidueRewards : Bool := false
  asset : Bool := false
  maxAssetsPerAccount : Nat := 0
  maxAssetNameBytes : Nat := 0
  maxAssetUnitNameBytes : Nat := 0
  maxAssetUrlBytes : Nat := 0
  txCounter : Bool := false
  supportTxGroups : Bool := false
  maxTxGroupSize : Nat := 0
  supportTransactionLeases : Bool := false
  fixTransactionLeases : Bool := false
  logicSigVersion : Nat := 0
  logicSigMaxSize : Nat := 0
  logicSigMaxCost : Nat := 0
  maxAssetDecimals : Nat := 0
  supportRekeying : Bool := false
  application : Bool := false
  maxAppArgs : Nat := 0
  maxAppTotalArgLen : Nat := 0
  maxAppProgramLen : Nat := 0
  maxAppTotalProgramLen : Nat := 0
  maxExtraAppProgramPages : Nat := 0
  maxAppTxAccounts : Nat := 0
  maxAppTxForeignApps : Nat := 0
  maxAppTxForeignAssets : Nat := 0
  maxAppTotalTxReferences : Nat := 0
  maxAppProgramCost : Nat := 0
  maxAppKeyLen : Nat := 0
  maxAppBytesValueLen : Nat := 0
  maxAppSumKeyValueLens : Nat := 0
  maxInnerTransactions : Nat := 0
  maxAppsCreated : Nat := 0
  maxAppsOptedIn : Nat := 0
  appFlatParamsMinBalance : Nat := 0
  appFlatOptInMinBalance : Nat := 0
  schemaMinBalancePerEntry : Nat := 0
  schemaUintMinBalance : Nat := 0
  schemaBytesMinBalance : Nat := 0
  maxLocalSchemaEntries : Nat := 0
  maxGlobalSchemaEntries : Nat := 0
  maximumMinimumBalance : Nat := 0
  compactCertRounds : Nat := 0
  compactCertTopVoters : Nat := 0
  compactCertVotersLookback : Nat := 0
  compactCertWeightThreshold : Nat := 0
  compactCertSecKq : Nat := 0
  enableAssetCloseAmount : Bool := false
  initialRewardsRateCalculation : Bool := false
  noEmptyLocalDeltas : Bool := false
  enableKeyregCoherencyCheck : Bool := false
  enableExtraPagesOnAppUpdate : Bool := false

/-- Parameters of `v7` before its upgrades are added (from line 612). -/
def v7Base : Params :=
  { upgradeVoteRounds := 10000,
    upgradeThreshold := 9000,
    defaultUpgradeWaitRounds := 10000,
    maxVersionStringLen := 64,
    minBalance := 10000,
    minTxFee := 1000,
    maxTxLife := 1000,
    maxTxNoteBytes := 1024,
    maxTxBytesPerBlock := 1000000,
    defaultKeyDilution := 10000,
    maxTimestampIncrement := 25,
    rewardUnit := 1000000,
    rewardsRateRefreshInterval := 500000,
    approvedUpgrades := [],
    numProposers := 30,
    softCommitteeSize := 2500,
    softCommitteeThreshold := 1870,
    certCommitteeSize := 1000,
    certCommitteeThreshold := 720,
    nextCommitteeSize := 10000,
    nextCommitteeThreshold := 7750,
    lateCommitteeSize := 10000,
    lateCommitteeThreshold := 7750,
    redoCommitteeSize := 10000,
    redoCommitteeThreshold := 7750,
    downCommitteeSize := 10000,
    downCommitteeThreshold := 7750,
    agreementFilterTimeout := (4) * 1000000000,
    agreementFilterTimeoutPeriod0 := (4) * 1000000000,
    fastRecoveryLambda := (5 * 60) * 1000000000,
    seedLookback := 2,
    seedRefreshInterval := 100,
    maxBalLookback := 320,
    maxTxGroupSize := 1 }

/-- Parameters of `v8` before its upgrades are added (from line 664): a copy of `v7` with changes. -/
def v8Base : Params :=
  { v7Base with
    seedRefreshInterval := 80,
    numProposers := 9,
    softCommitteeSize := 2990,
    softCommitteeThreshold := 2267,
    certCommitteeSize := 1500,
    certCommitteeThreshold := 1112,
    nextCommitteeSize := 5000,
    nextCommitteeThreshold := 3838,
    lateCommitteeSize := 5000,
    lateCommitteeThreshold := 3838,
    redoCommitteeSize := 5000,
    redoCommitteeThreshold := 3838,
    downCommitteeSize := 5000,
    downCommitteeThreshold := 3838 }

/-- Parameters of `v9` before its upgrades are added (from line 688): a copy of `v8` with changes. -/
def v9Base : Params :=
  { v8Base with
    minBalance := 100000 }

/-- Parameters of `v10` before its upgrades are added (from line 697): a copy of `v9` with changes. -/
def v10Base : Params :=
  { v9Base with
    fastPartitionRecovery := true,
    numProposers := 20,
    lateCommitteeSize := 500,
    lateCommitteeThreshold := 320,
    redoCommitteeSize := 2400,
    redoCommitteeThreshold := 1768,
    downCommitteeSize := 6000,
    downCommitteeThreshold := 4560 }

/-- Parameters of `v11` before its upgrades are added (from line 713): a copy of `v10` with changes. -/
def v11Base : Params :=
  { v10Base with
    supportSignedTxInBlock := true,
    paysetCommit := .flat }

/-- Parameters of `v12` before its upgrades are added (from line 723): a copy of `v11` with changes. -/
def v12Base : Params :=
  { v11Base with
    maxVersionStringLen := 128 }

/-- Parameters of `v13` before its upgrades are added (from line 732): a copy of `v12` with changes. -/
def v13Base : Params := v12Base

/-- Parameters of `v14` before its upgrades are added (from line 741): a copy of `v13` with changes. -/
def v14Base : Params :=
  { v13Base with
    applyData := true,
    supportGenesisHash := true }

/-- Parameters of `v15` before its upgrades are added (from line 751): a copy of `v14` with changes. -/
def v15Base : Params :=
  { v14Base with
    rewardsInApplyData := true,
    forceNonParticipatingFeeSink := true }

/-- Parameters of `v16` before its upgrades are added (from line 761): a copy of `v15` with changes. -/
def v16Base : Params :=
  { v15Base with
    credentialDomainSeparationEnabled := true,
    requireGenesisHash := true }

/-- Parameters of `v17` before its upgrades are added (from line 771): a copy of `v16` with changes. -/
def v17Base : Params := v16Base

/-- Parameters of `v18` before its upgrades are added (from line 779): a copy of `v17` with changes. -/
def v18Base : Params :=
  { v17Base with
    pendingResidueRewards := true,
    txCounter := true,
    asset := true,
    logicSigVersion := 1,
    logicSigMaxSize := 1000,
    logicSigMaxCost := 20000,
    maxAssetsPerAccount := 1000,
    supportTxGroups := true,
    maxTxGroupSize := 16,
    supportTransactionLeases := true,
    supportBecomeNonParticipatingTransactions := true,
    maxAssetNameBytes := 32,
    maxAssetUnitNameBytes := 8,
    maxAssetUrlBytes := 32 }

/-- Parameters of `v19` before its upgrades are added (from line 797): a copy of `v18` with changes. -/
def v19Base : Params := v18Base

/-- Parameters of `v20` before its upgrades are added (from line 808): a copy of `v19` with changes. -/
def v20Base : Params :=
  { v19Base with
    maxAssetDecimals := 19,
    defaultUpgradeWaitRounds := 140000 }

/-- Parameters of `v21` before its upgrades are added (from line 824): a copy of `v20` with changes. -/
def v21Base : Params := v20Base

/-- Parameters of `v22` before its upgrades are added (from line 831): a copy of `v21` with changes. -/
def v22Base : Params :=
  { v21Base with
    minUpgradeWaitRounds := 10000,
    maxUpgradeWaitRounds := 150000 }

/-- Parameters of `v23` before its upgrades are added (from line 838): a copy of `v22` with changes. -/
def v23Base : Params :=
  { v22Base with
    fixTransactionLeases := true }

/-- Parameters of `v24` before its upgrades are added (from line 849): a copy of `v23` with changes. -/
def v24Base : Params :=
  { v23Base with
    logicSigVersion := 2,
    application := true,
    supportRekeying := true,
    maximumMinimumBalance := 100100000,
    maxAppArgs := 16,
    maxAppTotalArgLen := 2048,
    maxAppProgramLen := 1024,
    maxAppTotalProgramLen := 2048,
    maxAppKeyLen := 64,
    maxAppBytesValueLen := 64,
    maxAppSumKeyValueLens := 128,
    appFlatParamsMinBalance := 100000,
    appFlatOptInMinBalance := 100000,
    maxAppTxAccounts := 4,
    maxAppTxForeignApps := 2,
    maxAppTxForeignAssets := 2,
    maxAppTotalTxReferences := 8,
    schemaMinBalancePerEntry := 25000,
    schemaUintMinBalance := 3500,
    schemaBytesMinBalance := 25000,
    maxLocalSchemaEntries := 16,
    maxGlobalSchemaEntries := 64,
    maxAppProgramCost := 700,
    maxAppsCreated := 10,
    maxAppsOptedIn := 10 }

/-- Parameters of `v25` before its upgrades are added (from line 916): a copy of `v24` with changes. -/
def v25Base : Params :=
  { v24Base with
    enableAssetCloseAmount := true }

/-- Parameters of `v26` before its upgrades are added (from line 923): a copy of `v25` with changes. -/
def v26Base : Params :=
  { v25Base with
    initialRewardsRateCalculation := true,
    paysetCommit := .merkle,
    logicSigVersion := 3 }

/-- Parameters of `v27` before its upgrades are added (from line 942): a copy of `v26` with changes. -/
def v27Base : Params :=
  { v26Base with
    noEmptyLocalDeltas := true }

/-- Parameters of `v28` before its upgrades are added (from line 956): a copy of `v27` with changes. -/
def v28Base : Params :=
  { v27Base with
    logicSigVersion := 4,
    maxExtraAppProgramPages := 3,
    maxAppProgramLen := 2048,
    maxAssetUrlBytes := 96,
    maxAppBytesValueLen := 128,
    maxAppTxForeignApps := 8,
    maxAppTxForeignAssets := 8,
    enableFeePooling := true,
    enableKeyregCoherencyCheck := true }

/-- Parameters of `v29` before its upgrades are added (from line 986): a copy of `v28` with changes. -/
def v29Base : Params :=
  { v28Base with
    enableExtraPagesOnAppUpdate := true }

/-- Parameters of `v30` before its upgrades are added (from line 998): a copy of `v29` with changes. -/
def v30Base : Params :=
  { v29Base with
    logicSigVersion := 5,
    enableAppCostPooling := true,
    maxInnerTransactions := 16,
    maxAppsOptedIn := 50 }

/-- Parameters of `v_future` before its upgrades are added (from line 1022): a copy of `v30` with changes. -/
def vFutureBase : Params :=
  { v30Base with
    agreementFilterTimeoutPeriod0 := (4) * 1000000000,
    compactCertRounds := 128,
    compactCertTopVoters := 1024 * 1024,
    compactCertVotersLookback := 16,
    compactCertWeightThreshold := (2 ^ 32 * 30 / 100) % 2 ^ 32,
    compactCertSecKq := 128 }

/-- The upgrades approved by each version (the `insert` calls between lines 607 and 1063). -/
def builtinUpgrades : Version → List (Version × Nat)
  | .v7 => [(.v8, 0)]
  | .v8 => [(.v9, 0)]
  | .v9 => [(.v10, 0)]
  | .v10 => [(.v11, 0)]
  | .v11 => [(.v12, 0)]
  | .v12 => [(.v13, 0)]
  | .v13 => [(.v14, 0)]
  | .v14 => [(.v15, 0)]
  | .v15 => [(.v16, 0)]
  | .v16 => [(.v17, 0)]
  | .v17 => [(.v19, 0)]
  | .v18 => [(.v19, 0)]
  | .v19 => [(.v20, 0)]
  | .v20 => [(.v21, 0)]
  | .v21 => [(.v23, 0)]
  | .v22 => [(.v23, 10000)]
  | .v23 => [(.v24, 140000)]
  | .v24 => [(.v26, 140000)]
  | .v25 => [(.v26, 140000)]
  | .v26 => [(.v27, 60000)]
  | .v27 => [(.v28, 140000)]
  | .v28 => [(.v29, 60000)]
  | .v29 => [(.v30, 140000)]
  | _ => []

/-- The table built by `init_consensus_protocols` (the `insert` calls at its end). -/
def builtin : List (Version × Params) :=
  [(.v7, { v7Base with approvedUpgrades := builtinUpgrades .v7 }),
   (.v8, { v8Base with approvedUpgrades := builtinUpgrades .v8 }),
   (.v9, { v9Base with approvedUpgrades := builtinUpgrades .v9 }),
   (.v10, { v10Base with approvedUpgrades := builtinUpgrades .v10 }),
   (.v11, { v11Base with approvedUpgrades := builtinUpgrades .v11 }),
   (.v12, { v12Base with approvedUpgrades := builtinUpgrades .v12 }),
   (.v13, { v13Base with approvedUpgrades := builtinUpgrades .v13 }),
   (.v14, { v14Base with approvedUpgrades := builtinUpgrades .v14 }),
   (.v15, { v15Base with approvedUpgrades := builtinUpgrades .v15 }),
   (.v16, { v16Base with approvedUpgrades := builtinUpgrades .v16 }),
   (.v17, { v17Base with approvedUpgrades := builtinUpgrades .v17 }),
   (.v18, { v18Base with approvedUpgrades := builtinUpgrades .v18 }),
   (.v19, { v19Base with approvedUpgrades := builtinUpgrades .v19 }),
   (.v20, { v20Base with approvedUpgrades := builtinUpgrades .v20 }),
   (.v21, { v21Base with approvedUpgrades := builtinUpgrades .v21 }),
   (.v22, { v22Base with approvedUpgrades := builtinUpgrades .v22 }),
   (.v23, { v23Base with approvedUpgrades := builtinUpgrades .v23 }),
   (.v24, { v24Base with approvedUpgrades := builtinUpgrades .v24 }),
   (.v25, { v25Base with approvedUpgrades := builtinUpgrades .v25 }),
   (.v26, { v26Base with approvedUpgrades := builtinUpgrades .v26 }),
   (.v27, { v27Base with approvedUpgrades := builtinUpgrades .v27 }),
   (.v28, { v28Base with approvedUpgrades := builtinUpgrades .v28 }),
   (.v29, { v29Base with approvedUpgrades := builtinUpgrades .v29 }),
   (.v30, { v30Base with approvedUpgrades := builtinUpgrades .v30 }),
   (.future, { vFutureBase with approvedUpgrades := builtinUpgrades .future })]

/-! ## Maps -/

variable {V : Type}

/-- `HashMap::get`. -/
def lookup (m : List (Version × V)) (v : Version) : Option V := (m.find? (fun e => e.1 = v)).map (·.2)

/-- `HashMap::remove`. -/
def remove (m : List (Version × V)) (v : Version) : List (Version × V) := m.filter (fun e => e.1 ≠ v)

/-- `HashMap::insert`. -/
def insert (m : List (Version × V)) (v : Version) (x : V) : List (Version × V) := (v, x) :: remove m v

/-- `HashMap::contains_key`. -/
def contains (m : List (Version × V)) (v : Version) : Bool := (lookup m v).isSome

/-- A table of protocols: `ConsensusProtocols`. -/
abbrev Protocols := List (Version × Params)

/-- Remove the upgrade to `target` from the entry of `ver` (lines 535-540: `get_mut(ver).unwrap()`). -/
def removeUpgrade (st : Protocols) (ver target : Version) : Res Unit Protocols :=
  match lookup st ver with
  | none => .panic
  | some p => .ok (insert st ver { p with approvedUpgrades := remove p.approvedUpgrades target })

/-- The inner loop over the original table (lines 530-542) for one deleted version. -/
def deleteVersion (version : Version) : Protocols → Protocols → Res Unit Protocols
  | [], st => .ok st
  | (ver, par) :: rest, st =>
    if ver = version then deleteVersion version rest (remove st ver)
    else if contains par.approvedUpgrades version then do
      let st ← removeUpgrade st ver version
      deleteVersion version rest st
    else deleteVersion version rest st

/-- The outer loop (lines 525-547). -/
def mergeLoop (self : Protocols) : Protocols → Protocols → Res Unit Protocols
  | [], st => .ok st
  | (version, params) :: rest, st =>
    if params.approvedUpgrades.isEmpty then do
      let st ← deleteVersion version self st
      mergeLoop self rest st
    else mergeLoop self rest (insert st version params)

/-- `ConsensusProtocols::merge` (lines 522-549). -/
def merge (self cfg : Protocols) : Res Unit Protocols := mergeLoop self cfg self

/-! ## The override file -/

/-- What can go wrong with the file. -/
inductive FileError where
  | notFound
  | other
  deriving Repr, DecidableEq

/-- The override file: absent, or present with the JSON of a table (C143 is about the text of the file, and that it is
read back as the same table), or present but unreadable. -/
inductive OverrideFile where
  | absent
  | table (t : Protocols)
  | bad

/-- `std::fs::remove_file`. -/
def removeFile : OverrideFile → Res FileError OverrideFile
  | .absent => .err .notFound
  | _ => .ok .absent

/-- `save_configurable_consensus` (lines 492-510). The file state after an error is the state before. -/
def save (f : OverrideFile) (params : Protocols) : Res FileError OverrideFile :=
  if params.isEmpty then do
    let _ ← removeFile f
    pure (.table params)
  else pure (.table params)

/-- `preload_configurable_consensus_protocols` (lines 590-605). -/
def preload (f : OverrideFile) (consensus : Protocols) : Res FileError Protocols :=
  match f with
  | .absent => .ok consensus
  | .bad => .err .other
  | .table t =>
    match merge consensus t with
    | .ok r => .ok r
    | .err _ => .panic
    | .panic => .panic

/-- `load_configurable_consensus_protocols` (lines 573-586): the new value of `consensus`. -/
def load (f : OverrideFile) (consensus : Protocols) : Res FileError Protocols := do
  let n ← preload f consensus
  if n.isEmpty then pure consensus else pure n

end Verif.Consensus
