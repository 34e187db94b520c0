import Verif.Model.Consensus
import Verif.Model.ConfigRoot
/-!
# The file of consensus overrides (src/config/consensus.rs lines 358-605)

What `serde` derives for `ConsensusProtocols`, `ConsensusParams`, `ConsensusVersion` and `PaysetCommitType` is modelled: how
they become JSON values and how JSON values are read. The text of a JSON file is related to a JSON value by a parser and a
printer that are parameters (`serde_json`), as in `Verif/Model/Config.lean`. Opening the file for writing does not fail.
-/

namespace Verif.Consensus
open Verif Verif.Config

/-- The parameters of `ConsensusParams` (lines 19-356), in the order of the source. -/
inductive PField where
  | upgradeVoteRounds | upgradeThreshold | defaultUpgradeWaitRounds | minUpgradeWaitRounds | maxUpgradeWaitRounds
  | maxVersionStringLen | maxTxBytesPerBlock | maxTxNoteBytes | maxTxLife | approvedUpgrades | supportGenesisHash
  | requireGenesisHash | defaultKeyDilution | minBalance | minTxFee | enableFeePooling | enableAppCostPooling
  | rewardUnit | rewardsRateRefreshInterval | seedLookback | seedRefreshInterval | maxBalLookback | numProposers
  | softCommitteeSize | softCommitteeThreshold | certCommitteeSize | certCommitteeThreshold | nextCommitteeSize
  | nextCommitteeThreshold | lateCommitteeSize | lateCommitteeThreshold | redoCommitteeSize
  | redoCommitteeThreshold | downCommitteeSize | downCommitteeThreshold | agreementFilterTimeout
  | agreementFilterTimeoutPeriod0 | fastRecoveryLambda | fastPartitionRecovery | paysetCommit
  | maxTimestampIncrement | supportSignedTxInBlock | forceNonParticipatingFeeSink | applyData | rewardsInApplyData
  | credentialDomainSeparationEnabled | supportBecomeNonParticipatingTransactions | pendingResidueRewards | asset
  | maxAssetsPerAccount | maxAssetNameBytes | maxAssetUnitNameBytes | maxAssetUrlBytes | txCounter
  | supportTxGroups | maxTxGroupSize | supportTransactionLeases | fixTransactionLeases | logicSigVersion
  | logicSigMaxSize | logicSigMaxCost | maxAssetDecimals | supportRekeying | application | maxAppArgs
  | maxAppTotalArgLen | maxAppProgramLen | maxAppTotalProgramLen | maxExtraAppProgramPages | maxAppTxAccounts
  | maxAppTxForeignApps | maxAppTxForeignAssets | maxAppTotalTxReferences | maxAppProgramCost | maxAppKeyLen
  | maxAppBytesValueLen | maxAppSumKeyValueLens | maxInnerTransactions | maxAppsCreated | maxAppsOptedIn
  | appFlatParamsMinBalance | appFlatOptInMinBalance | schemaMinBalancePerEntry | schemaUintMinBalance
  | schemaBytesMinBalance | maxLocalSchemaEntries | maxGlobalSchemaEntries | maximumMinimumBalance
  | compactCertRounds | compactCertTopVoters | compactCertVotersLookback | compactCertWeightThreshold
  | compactCertSecKq | enableAssetCloseAmount | initialRewardsRateCalculation | noEmptyLocalDeltas
  | enableKeyregCoherencyCheck | enableExtraPagesOnAppUpdate
  deriving Repr, DecidableEq

/-- All parameters, in the order of the source. -/
def PField.all : List PField :=
  [.upgradeVoteRounds, .upgradeThreshold, .defaultUpgradeWaitRounds, .minUpgradeWaitRounds, .maxUpgradeWaitRounds,
   .maxVersionStringLen, .maxTxBytesPerBlock, .maxTxNoteBytes, .maxTxLife, .approvedUpgrades, .supportGenesisHash,
   .requireGenesisHash, .defaultKeyDilution, .minBalance, .minTxFee, .enableFeePooling, .enableAppCostPooling,
   .rewardUnit, .rewardsRateRefreshInterval, .seedLookback, .seedRefreshInterval, .maxBalLookback, .numProposers,
   .softCommitteeSize, .softCommitteeThreshold, .certCommitteeSize, .certCommitteeThreshold, .nextCommitteeSize,
   .nextCommitteeThreshold, .lateCommitteeSize, .lateCommitteeThreshold, .redoCommitteeSize,
   .redoCommitteeThreshold, .downCommitteeSize, .downCommitteeThreshold, .agreementFilterTimeout,
   .agreementFilterTimeoutPeriod0, .fastRecoveryLambda, .fastPartitionRecovery, .paysetCommit,
   .maxTimestampIncrement, .supportSignedTxInBlock, .forceNonParticipatingFeeSink, .applyData,
   .rewardsInApplyData, .credentialDomainSeparationEnabled, .supportBecomeNonParticipatingTransactions,
   .pendingResidueRewards, .asset, .maxAssetsPerAccount, .maxAssetNameBytes, .maxAssetUnitNameBytes,
   .maxAssetUrlBytes, .txCounter, .supportTxGroups, .maxTxGroupSize, .supportTransactionLeases,
   .fixTransactionLeases, .logicSigVersion, .logicSigMaxSize, .logicSigMaxCost, .maxAssetDecimals,
   .supportRekeying, .application, .maxAppArgs, .maxAppTotalArgLen, .maxAppProgramLen, .maxAppTotalProgramLen,
   .maxExtraAppProgramPages, .maxAppTxAccounts, .maxAppTxForeignApps, .maxAppTxForeignAssets,
   .maxAppTotalTxReferences, .maxAppProgramCost, .maxAppKeyLen, .maxAppBytesValueLen, .maxAppSumKeyValueLens,
   .maxInnerTransactions, .maxAppsCreated, .maxAppsOptedIn, .appFlatParamsMinBalance, .appFlatOptInMinBalance,
   .schemaMinBalancePerEntry, .schemaUintMinBalance, .schemaBytesMinBalance, .maxLocalSchemaEntries,
   .maxGlobalSchemaEntries, .maximumMinimumBalance, .compactCertRounds, .compactCertTopVoters,
   .compactCertVotersLookback, .compactCertWeightThreshold, .compactCertSecKq, .enableAssetCloseAmount,
   .initialRewardsRateCalculation, .noEmptyLocalDeltas, .enableKeyregCoherencyCheck, .enableExtraPagesOnAppUpdate]

/-- The name of a parameter in the file: serde uses the name of the field. -/
def PField.name : PField → Str
  | .upgradeVoteRounds => ['u', 'p', 'g', 'r', 'a', 'd', 'e', '_', 'v', 'o', 't', 'e', '_', 'r', 'o', 'u', 'n', 'd', 's']
  | .upgradeThreshold => ['u', 'p', 'g', 'r', 'a', 'd', 'e', '_', 't', 'h', 'r', 'e', 's', 'h', 'o', 'l', 'd']
  | .defaultUpgradeWaitRounds =>
      ['d', 'e', 'f', 'a', 'u', 'l', 't', '_', 'u', 'p', 'g', 'r', 'a', 'd', 'e', '_', 'w', 'a', 'i', 't',
      '_', 'r', 'o', 'u', 'n', 'd', 's']
  | .minUpgradeWaitRounds =>
      ['m', 'i', 'n', '_', 'u', 'p', 'g', 'r', 'a', 'd', 'e', '_', 'w', 'a', 'i', 't', '_', 'r', 'o', 'u',
      'n', 'd', 's']
  | .maxUpgradeWaitRounds =>
      ['m', 'a', 'x', '_', 'u', 'p', 'g', 'r', 'a', 'd', 'e', '_', 'w', 'a', 'i', 't', '_', 'r', 'o', 'u',
      'n', 'd', 's']
  | .maxVersionStringLen =>
      ['m', 'a', 'x', '_', 'v', 'e', 'r', 's', 'i', 'o', 'n', '_', 's', 't', 'r', 'i', 'n', 'g', '_', 'l',
      'e', 'n']
  | .maxTxBytesPerBlock =>
      ['m', 'a', 'x', '_', 't', 'x', '_', 'b', 'y', 't', 'e', 's', '_', 'p', 'e', 'r', '_', 'b', 'l', 'o',
      'c', 'k']
  | .maxTxNoteBytes => ['m', 'a', 'x', '_', 't', 'x', '_', 'n', 'o', 't', 'e', '_', 'b', 'y', 't', 'e', 's']
  | .maxTxLife => ['m', 'a', 'x', '_', 't', 'x', '_', 'l', 'i', 'f', 'e']
  | .approvedUpgrades => ['a', 'p', 'p', 'r', 'o', 'v', 'e', 'd', '_', 'u', 'p', 'g', 'r', 'a', 'd', 'e', 's']
  | .supportGenesisHash =>
      ['s', 'u', 'p', 'p', 'o', 'r', 't', '_', 'g', 'e', 'n', 'e', 's', 'i', 's', '_', 'h', 'a', 's', 'h']
  | .requireGenesisHash =>
      ['r', 'e', 'q', 'u', 'i', 'r', 'e', '_', 'g', 'e', 'n', 'e', 's', 'i', 's', '_', 'h', 'a', 's', 'h']
  | .defaultKeyDilution =>
      ['d', 'e', 'f', 'a', 'u', 'l', 't', '_', 'k', 'e', 'y', '_', 'd', 'i', 'l', 'u', 't', 'i', 'o', 'n']
  | .minBalance => ['m', 'i', 'n', '_', 'b', 'a', 'l', 'a', 'n', 'c', 'e']
  | .minTxFee => ['m', 'i', 'n', '_', 't', 'x', '_', 'f', 'e', 'e']
  | .enableFeePooling => ['e', 'n', 'a', 'b', 'l', 'e', '_', 'f', 'e', 'e', '_', 'p', 'o', 'o', 'l', 'i', 'n', 'g']
  | .enableAppCostPooling =>
      ['e', 'n', 'a', 'b', 'l', 'e', '_', 'a', 'p', 'p', '_', 'c', 'o', 's', 't', '_', 'p', 'o', 'o', 'l',
      'i', 'n', 'g']
  | .rewardUnit => ['r', 'e', 'w', 'a', 'r', 'd', '_', 'u', 'n', 'i', 't']
  | .rewardsRateRefreshInterval =>
      ['r', 'e', 'w', 'a', 'r', 'd', 's', '_', 'r', 'a', 't', 'e', '_', 'r', 'e', 'f', 'r', 'e', 's', 'h',
      '_', 'i', 'n', 't', 'e', 'r', 'v', 'a', 'l']
  | .seedLookback => ['s', 'e', 'e', 'd', '_', 'l', 'o', 'o', 'k', 'b', 'a', 'c', 'k']
  | .seedRefreshInterval =>
      ['s', 'e', 'e', 'd', '_', 'r', 'e', 'f', 'r', 'e', 's', 'h', '_', 'i', 'n', 't', 'e', 'r', 'v', 'a',
      'l']
  | .maxBalLookback => ['m', 'a', 'x', '_', 'b', 'a', 'l', '_', 'l', 'o', 'o', 'k', 'b', 'a', 'c', 'k']
  | .numProposers => ['n', 'u', 'm', '_', 'p', 'r', 'o', 'p', 'o', 's', 'e', 'r', 's']
  | .softCommitteeSize => ['s', 'o', 'f', 't', '_', 'c', 'o', 'm', 'm', 'i', 't', 't', 'e', 'e', '_', 's', 'i', 'z', 'e']
  | .softCommitteeThreshold =>
      ['s', 'o', 'f', 't', '_', 'c', 'o', 'm', 'm', 'i', 't', 't', 'e', 'e', '_', 't', 'h', 'r', 'e', 's',
      'h', 'o', 'l', 'd']
  | .certCommitteeSize => ['c', 'e', 'r', 't', '_', 'c', 'o', 'm', 'm', 'i', 't', 't', 'e', 'e', '_', 's', 'i', 'z', 'e']
  | .certCommitteeThreshold =>
      ['c', 'e', 'r', 't', '_', 'c', 'o', 'm', 'm', 'i', 't', 't', 'e', 'e', '_', 't', 'h', 'r', 'e', 's',
      'h', 'o', 'l', 'd']
  | .nextCommitteeSize => ['n', 'e', 'x', 't', '_', 'c', 'o', 'm', 'm', 'i', 't', 't', 'e', 'e', '_', 's', 'i', 'z', 'e']
  | .nextCommitteeThreshold =>
      ['n', 'e', 'x', 't', '_', 'c', 'o', 'm', 'm', 'i', 't', 't', 'e', 'e', '_', 't', 'h', 'r', 'e', 's',
      'h', 'o', 'l', 'd']
  | .lateCommitteeSize => ['l', 'a', 't', 'e', '_', 'c', 'o', 'm', 'm', 'i', 't', 't', 'e', 'e', '_', 's', 'i', 'z', 'e']
  | .lateCommitteeThreshold =>
      ['l', 'a', 't', 'e', '_', 'c', 'o', 'm', 'm', 'i', 't', 't', 'e', 'e', '_', 't', 'h', 'r', 'e', 's',
      'h', 'o', 'l', 'd']
  | .redoCommitteeSize => ['r', 'e', 'd', 'o', '_', 'c', 'o', 'm', 'm', 'i', 't', 't', 'e', 'e', '_', 's', 'i', 'z', 'e']
  | .redoCommitteeThreshold =>
      ['r', 'e', 'd', 'o', '_', 'c', 'o', 'm', 'm', 'i', 't', 't', 'e', 'e', '_', 't', 'h', 'r', 'e', 's',
      'h', 'o', 'l', 'd']
  | .downCommitteeSize => ['d', 'o', 'w', 'n', '_', 'c', 'o', 'm', 'm', 'i', 't', 't', 'e', 'e', '_', 's', 'i', 'z', 'e']
  | .downCommitteeThreshold =>
      ['d', 'o', 'w', 'n', '_', 'c', 'o', 'm', 'm', 'i', 't', 't', 'e', 'e', '_', 't', 'h', 'r', 'e', 's',
      'h', 'o', 'l', 'd']
  | .agreementFilterTimeout =>
      ['a', 'g', 'r', 'e', 'e', 'm', 'e', 'n', 't', '_', 'f', 'i', 'l', 't', 'e', 'r', '_', 't', 'i', 'm',
      'e', 'o', 'u', 't']
  | .agreementFilterTimeoutPeriod0 =>
      ['a', 'g', 'r', 'e', 'e', 'm', 'e', 'n', 't', '_', 'f', 'i', 'l', 't', 'e', 'r', '_', 't', 'i', 'm',
      'e', 'o', 'u', 't', '_', 'p', 'e', 'r', 'i', 'o', 'd', '0']
  | .fastRecoveryLambda =>
      ['f', 'a', 's', 't', '_', 'r', 'e', 'c', 'o', 'v', 'e', 'r', 'y', '_', 'l', 'a', 'm', 'b', 'd', 'a']
  | .fastPartitionRecovery =>
      ['f', 'a', 's', 't', '_', 'p', 'a', 'r', 't', 'i', 't', 'i', 'o', 'n', '_', 'r', 'e', 'c', 'o', 'v',
      'e', 'r', 'y']
  | .paysetCommit => ['p', 'a', 'y', 's', 'e', 't', '_', 'c', 'o', 'm', 'm', 'i', 't']
  | .maxTimestampIncrement =>
      ['m', 'a', 'x', '_', 't', 'i', 'm', 'e', 's', 't', 'a', 'm', 'p', '_', 'i', 'n', 'c', 'r', 'e', 'm',
      'e', 'n', 't']
  | .supportSignedTxInBlock =>
      ['s', 'u', 'p', 'p', 'o', 'r', 't', '_', 's', 'i', 'g', 'n', 'e', 'd', '_', 't', 'x', '_', 'i', 'n',
      '_', 'b', 'l', 'o', 'c', 'k']
  | .forceNonParticipatingFeeSink =>
      ['f', 'o', 'r', 'c', 'e', '_', 'n', 'o', 'n', '_', 'p', 'a', 'r', 't', 'i', 'c', 'i', 'p', 'a', 't',
      'i', 'n', 'g', '_', 'f', 'e', 'e', '_', 's', 'i', 'n', 'k']
  | .applyData => ['a', 'p', 'p', 'l', 'y', '_', 'd', 'a', 't', 'a']
  | .rewardsInApplyData =>
      ['r', 'e', 'w', 'a', 'r', 'd', 's', '_', 'i', 'n', '_', 'a', 'p', 'p', 'l', 'y', '_', 'd', 'a', 't',
      'a']
  | .credentialDomainSeparationEnabled =>
      ['c', 'r', 'e', 'd', 'e', 'n', 't', 'i', 'a', 'l', '_', 'd', 'o', 'm', 'a', 'i', 'n', '_', 's', 'e',
      'p', 'a', 'r', 'a', 't', 'i', 'o', 'n', '_', 'e', 'n', 'a', 'b', 'l', 'e', 'd']
  | .supportBecomeNonParticipatingTransactions =>
      ['s', 'u', 'p', 'p', 'o', 'r', 't', '_', 'b', 'e', 'c', 'o', 'm', 'e', '_', 'n', 'o', 'n', '_', 'p',
      'a', 'r', 't', 'i', 'c', 'i', 'p', 'a', 't', 'i', 'n', 'g', '_', 't', 'r', 'a', 'n', 's', 'a', 'c',
      't', 'i', 'o', 'n', 's']
  | .pendingResidueRewards =>
      ['p', 'e', 'n', 'd', 'i', 'n', 'g', '_', 'r', 'e', 's', 'i', 'd', 'u', 'e', '_', 'r', 'e', 'w', 'a',
      'r', 'd', 's']
  | .asset => ['a', 's', 's', 'e', 't']
  | .maxAssetsPerAccount =>
      ['m', 'a', 'x', '_', 'a', 's', 's', 'e', 't', 's', '_', 'p', 'e', 'r', '_', 'a', 'c', 'c', 'o', 'u',
      'n', 't']
  | .maxAssetNameBytes =>
      ['m', 'a', 'x', '_', 'a', 's', 's', 'e', 't', '_', 'n', 'a', 'm', 'e', '_', 'b', 'y', 't', 'e', 's']
  | .maxAssetUnitNameBytes =>
      ['m', 'a', 'x', '_', 'a', 's', 's', 'e', 't', '_', 'u', 'n', 'i', 't', '_', 'n', 'a', 'm', 'e', '_',
      'b', 'y', 't', 'e', 's']
  | .maxAssetUrlBytes => ['m', 'a', 'x', '_', 'a', 's', 's', 'e', 't', '_', 'u', 'r', 'l', '_', 'b', 'y', 't', 'e', 's']
  | .txCounter => ['t', 'x', '_', 'c', 'o', 'u', 'n', 't', 'e', 'r']
  | .supportTxGroups => ['s', 'u', 'p', 'p', 'o', 'r', 't', '_', 't', 'x', '_', 'g', 'r', 'o', 'u', 'p', 's']
  | .maxTxGroupSize => ['m', 'a', 'x', '_', 't', 'x', '_', 'g', 'r', 'o', 'u', 'p', '_', 's', 'i', 'z', 'e']
  | .supportTransactionLeases =>
      ['s', 'u', 'p', 'p', 'o', 'r', 't', '_', 't', 'r', 'a', 'n', 's', 'a', 'c', 't', 'i', 'o', 'n', '_',
      'l', 'e', 'a', 's', 'e', 's']
  | .fixTransactionLeases =>
      ['f', 'i', 'x', '_', 't', 'r', 'a', 'n', 's', 'a', 'c', 't', 'i', 'o', 'n', '_', 'l', 'e', 'a', 's',
      'e', 's']
  | .logicSigVersion => ['l', 'o', 'g', 'i', 'c', '_', 's', 'i', 'g', '_', 'v', 'e', 'r', 's', 'i', 'o', 'n']
  | .logicSigMaxSize => ['l', 'o', 'g', 'i', 'c', '_', 's', 'i', 'g', '_', 'm', 'a', 'x', '_', 's', 'i', 'z', 'e']
  | .logicSigMaxCost => ['l', 'o', 'g', 'i', 'c', '_', 's', 'i', 'g', '_', 'm', 'a', 'x', '_', 'c', 'o', 's', 't']
  | .maxAssetDecimals => ['m', 'a', 'x', '_', 'a', 's', 's', 'e', 't', '_', 'd', 'e', 'c', 'i', 'm', 'a', 'l', 's']
  | .supportRekeying => ['s', 'u', 'p', 'p', 'o', 'r', 't', '_', 'r', 'e', 'k', 'e', 'y', 'i', 'n', 'g']
  | .application => ['a', 'p', 'p', 'l', 'i', 'c', 'a', 't', 'i', 'o', 'n']
  | .maxAppArgs => ['m', 'a', 'x', '_', 'a', 'p', 'p', '_', 'a', 'r', 'g', 's']
  | .maxAppTotalArgLen =>
      ['m', 'a', 'x', '_', 'a', 'p', 'p', '_', 't', 'o', 't', 'a', 'l', '_', 'a', 'r', 'g', '_', 'l', 'e',
      'n']
  | .maxAppProgramLen => ['m', 'a', 'x', '_', 'a', 'p', 'p', '_', 'p', 'r', 'o', 'g', 'r', 'a', 'm', '_', 'l', 'e', 'n']
  | .maxAppTotalProgramLen =>
      ['m', 'a', 'x', '_', 'a', 'p', 'p', '_', 't', 'o', 't', 'a', 'l', '_', 'p', 'r', 'o', 'g', 'r', 'a',
      'm', '_', 'l', 'e', 'n']
  | .maxExtraAppProgramPages =>
      ['m', 'a', 'x', '_', 'e', 'x', 't', 'r', 'a', '_', 'a', 'p', 'p', '_', 'p', 'r', 'o', 'g', 'r', 'a',
      'm', '_', 'p', 'a', 'g', 'e', 's']
  | .maxAppTxAccounts => ['m', 'a', 'x', '_', 'a', 'p', 'p', '_', 't', 'x', '_', 'a', 'c', 'c', 'o', 'u', 'n', 't', 's']
  | .maxAppTxForeignApps =>
      ['m', 'a', 'x', '_', 'a', 'p', 'p', '_', 't', 'x', '_', 'f', 'o', 'r', 'e', 'i', 'g', 'n', '_', 'a',
      'p', 'p', 's']
  | .maxAppTxForeignAssets =>
      ['m', 'a', 'x', '_', 'a', 'p', 'p', '_', 't', 'x', '_', 'f', 'o', 'r', 'e', 'i', 'g', 'n', '_', 'a',
      's', 's', 'e', 't', 's']
  | .maxAppTotalTxReferences =>
      ['m', 'a', 'x', '_', 'a', 'p', 'p', '_', 't', 'o', 't', 'a', 'l', '_', 't', 'x', '_', 'r', 'e', 'f',
      'e', 'r', 'e', 'n', 'c', 'e', 's']
  | .maxAppProgramCost =>
      ['m', 'a', 'x', '_', 'a', 'p', 'p', '_', 'p', 'r', 'o', 'g', 'r', 'a', 'm', '_', 'c', 'o', 's', 't']
  | .maxAppKeyLen => ['m', 'a', 'x', '_', 'a', 'p', 'p', '_', 'k', 'e', 'y', '_', 'l', 'e', 'n']
  | .maxAppBytesValueLen =>
      ['m', 'a', 'x', '_', 'a', 'p', 'p', '_', 'b', 'y', 't', 'e', 's', '_', 'v', 'a', 'l', 'u', 'e', '_',
      'l', 'e', 'n']
  | .maxAppSumKeyValueLens =>
      ['m', 'a', 'x', '_', 'a', 'p', 'p', '_', 's', 'u', 'm', '_', 'k', 'e', 'y', '_', 'v', 'a', 'l', 'u',
      'e', '_', 'l', 'e', 'n', 's']
  | .maxInnerTransactions =>
      ['m', 'a', 'x', '_', 'i', 'n', 'n', 'e', 'r', '_', 't', 'r', 'a', 'n', 's', 'a', 'c', 't', 'i', 'o',
      'n', 's']
  | .maxAppsCreated => ['m', 'a', 'x', '_', 'a', 'p', 'p', 's', '_', 'c', 'r', 'e', 'a', 't', 'e', 'd']
  | .maxAppsOptedIn => ['m', 'a', 'x', '_', 'a', 'p', 'p', 's', '_', 'o', 'p', 't', 'e', 'd', '_', 'i', 'n']
  | .appFlatParamsMinBalance =>
      ['a', 'p', 'p', '_', 'f', 'l', 'a', 't', '_', 'p', 'a', 'r', 'a', 'm', 's', '_', 'm', 'i', 'n', '_',
      'b', 'a', 'l', 'a', 'n', 'c', 'e']
  | .appFlatOptInMinBalance =>
      ['a', 'p', 'p', '_', 'f', 'l', 'a', 't', '_', 'o', 'p', 't', '_', 'i', 'n', '_', 'm', 'i', 'n', '_',
      'b', 'a', 'l', 'a', 'n', 'c', 'e']
  | .schemaMinBalancePerEntry =>
      ['s', 'c', 'h', 'e', 'm', 'a', '_', 'm', 'i', 'n', '_', 'b', 'a', 'l', 'a', 'n', 'c', 'e', '_', 'p',
      'e', 'r', '_', 'e', 'n', 't', 'r', 'y']
  | .schemaUintMinBalance =>
      ['s', 'c', 'h', 'e', 'm', 'a', '_', 'u', 'i', 'n', 't', '_', 'm', 'i', 'n', '_', 'b', 'a', 'l', 'a',
      'n', 'c', 'e']
  | .schemaBytesMinBalance =>
      ['s', 'c', 'h', 'e', 'm', 'a', '_', 'b', 'y', 't', 'e', 's', '_', 'm', 'i', 'n', '_', 'b', 'a', 'l',
      'a', 'n', 'c', 'e']
  | .maxLocalSchemaEntries =>
      ['m', 'a', 'x', '_', 'l', 'o', 'c', 'a', 'l', '_', 's', 'c', 'h', 'e', 'm', 'a', '_', 'e', 'n', 't',
      'r', 'i', 'e', 's']
  | .maxGlobalSchemaEntries =>
      ['m', 'a', 'x', '_', 'g', 'l', 'o', 'b', 'a', 'l', '_', 's', 'c', 'h', 'e', 'm', 'a', '_', 'e', 'n',
      't', 'r', 'i', 'e', 's']
  | .maximumMinimumBalance =>
      ['m', 'a', 'x', 'i', 'm', 'u', 'm', '_', 'm', 'i', 'n', 'i', 'm', 'u', 'm', '_', 'b', 'a', 'l', 'a',
      'n', 'c', 'e']
  | .compactCertRounds => ['c', 'o', 'm', 'p', 'a', 'c', 't', '_', 'c', 'e', 'r', 't', '_', 'r', 'o', 'u', 'n', 'd', 's']
  | .compactCertTopVoters =>
      ['c', 'o', 'm', 'p', 'a', 'c', 't', '_', 'c', 'e', 'r', 't', '_', 't', 'o', 'p', '_', 'v', 'o', 't',
      'e', 'r', 's']
  | .compactCertVotersLookback =>
      ['c', 'o', 'm', 'p', 'a', 'c', 't', '_', 'c', 'e', 'r', 't', '_', 'v', 'o', 't', 'e', 'r', 's', '_',
      'l', 'o', 'o', 'k', 'b', 'a', 'c', 'k']
  | .compactCertWeightThreshold =>
      ['c', 'o', 'm', 'p', 'a', 'c', 't', '_', 'c', 'e', 'r', 't', '_', 'w', 'e', 'i', 'g', 'h', 't', '_',
      't', 'h', 'r', 'e', 's', 'h', 'o', 'l', 'd']
  | .compactCertSecKq => ['c', 'o', 'm', 'p', 'a', 'c', 't', '_', 'c', 'e', 'r', 't', '_', 's', 'e', 'c', '_', 'k', 'q']
  | .enableAssetCloseAmount =>
      ['e', 'n', 'a', 'b', 'l', 'e', '_', 'a', 's', 's', 'e', 't', '_', 'c', 'l', 'o', 's', 'e', '_', 'a',
      'm', 'o', 'u', 'n', 't']
  | .initialRewardsRateCalculation =>
      ['i', 'n', 'i', 't', 'i', 'a', 'l', '_', 'r', 'e', 'w', 'a', 'r', 'd', 's', '_', 'r', 'a', 't', 'e',
      '_', 'c', 'a', 'l', 'c', 'u', 'l', 'a', 't', 'i', 'o', 'n']
  | .noEmptyLocalDeltas =>
      ['n', 'o', '_', 'e', 'm', 'p', 't', 'y', '_', 'l', 'o', 'c', 'a', 'l', '_', 'd', 'e', 'l', 't', 'a',
      's']
  | .enableKeyregCoherencyCheck =>
      ['e', 'n', 'a', 'b', 'l', 'e', '_', 'k', 'e', 'y', 'r', 'e', 'g', '_', 'c', 'o', 'h', 'e', 'r', 'e',
      'n', 'c', 'y', '_', 'c', 'h', 'e', 'c', 'k']
  | .enableExtraPagesOnAppUpdate =>
      ['e', 'n', 'a', 'b', 'l', 'e', '_', 'e', 'x', 't', 'r', 'a', '_', 'p', 'a', 'g', 'e', 's', '_', 'o',
      'n', '_', 'a', 'p', 'p', '_', 'u', 'p', 'd', 'a', 't', 'e']

/-- The types of parameters. -/
inductive PTy where
  | u32 | u64 | bool | dur | payset | upgrades
  deriving Repr, DecidableEq

/-- The value of a parameter; a duration is a number of nanoseconds. -/
inductive PVal where
  | nat (n : Nat)
  | bool (b : Bool)
  | payset (p : PaysetCommit)
  | upgrades (l : List (Version × Nat))
  deriving Repr, DecidableEq

/-- The type of a parameter (lines 19-356). -/
def PField.ty : PField → PTy
  | .upgradeVoteRounds => .u64
  | .upgradeThreshold => .u64
  | .defaultUpgradeWaitRounds => .u64
  | .minUpgradeWaitRounds => .u64
  | .maxUpgradeWaitRounds => .u64
  | .maxVersionStringLen => .u32
  | .maxTxBytesPerBlock => .u32
  | .maxTxNoteBytes => .u32
  | .maxTxLife => .u64
  | .approvedUpgrades => .upgrades
  | .supportGenesisHash => .bool
  | .requireGenesisHash => .bool
  | .defaultKeyDilution => .u64
  | .minBalance => .u64
  | .minTxFee => .u64
  | .enableFeePooling => .bool
  | .enableAppCostPooling => .bool
  | .rewardUnit => .u64
  | .rewardsRateRefreshInterval => .u64
  | .seedLookback => .u64
  | .seedRefreshInterval => .u64
  | .maxBalLookback => .u64
  | .numProposers => .u64
  | .softCommitteeSize => .u64
  | .softCommitteeThreshold => .u64
  | .certCommitteeSize => .u64
  | .certCommitteeThreshold => .u64
  | .nextCommitteeSize => .u64
  | .nextCommitteeThreshold => .u64
  | .lateCommitteeSize => .u64
  | .lateCommitteeThreshold => .u64
  | .redoCommitteeSize => .u64
  | .redoCommitteeThreshold => .u64
  | .downCommitteeSize => .u64
  | .downCommitteeThreshold => .u64
  | .agreementFilterTimeout => .dur
  | .agreementFilterTimeoutPeriod0 => .dur
  | .fastRecoveryLambda => .dur
  | .fastPartitionRecovery => .bool
  | .paysetCommit => .payset
  | .maxTimestampIncrement => .u64
  | .supportSignedTxInBlock => .bool
  | .forceNonParticipatingFeeSink => .bool
  | .applyData => .bool
  | .rewardsInApplyData => .bool
  | .credentialDomainSeparationEnabled => .bool
  | .supportBecomeNonParticipatingTransactions => .bool
  | .pendingResidueRewards => .bool
  | .asset => .bool
  | .maxAssetsPerAccount => .u32
  | .maxAssetNameBytes => .u32
  | .maxAssetUnitNameBytes => .u32
  | .maxAssetUrlBytes => .u32
  | .txCounter => .bool
  | .supportTxGroups => .bool
  | .maxTxGroupSize => .u32
  | .supportTransactionLeases => .bool
  | .fixTransactionLeases => .bool
  | .logicSigVersion => .u64
  | .logicSigMaxSize => .u64
  | .logicSigMaxCost => .u64
  | .maxAssetDecimals => .u32
  | .supportRekeying => .bool
  | .application => .bool
  | .maxAppArgs => .u32
  | .maxAppTotalArgLen => .u32
  | .maxAppProgramLen => .u32
  | .maxAppTotalProgramLen => .u32
  | .maxExtraAppProgramPages => .u32
  | .maxAppTxAccounts => .u32
  | .maxAppTxForeignApps => .u32
  | .maxAppTxForeignAssets => .u32
  | .maxAppTotalTxReferences => .u32
  | .maxAppProgramCost => .u32
  | .maxAppKeyLen => .u32
  | .maxAppBytesValueLen => .u32
  | .maxAppSumKeyValueLens => .u32
  | .maxInnerTransactions => .u32
  | .maxAppsCreated => .u32
  | .maxAppsOptedIn => .u32
  | .appFlatParamsMinBalance => .u64
  | .appFlatOptInMinBalance => .u64
  | .schemaMinBalancePerEntry => .u64
  | .schemaUintMinBalance => .u64
  | .schemaBytesMinBalance => .u64
  | .maxLocalSchemaEntries => .u64
  | .maxGlobalSchemaEntries => .u64
  | .maximumMinimumBalance => .u64
  | .compactCertRounds => .u64
  | .compactCertTopVoters => .u64
  | .compactCertVotersLookback => .u64
  | .compactCertWeightThreshold => .u32
  | .compactCertSecKq => .u32
  | .enableAssetCloseAmount => .bool
  | .initialRewardsRateCalculation => .bool
  | .noEmptyLocalDeltas => .bool
  | .enableKeyregCoherencyCheck => .bool
  | .enableExtraPagesOnAppUpdate => .bool

/-- The value of a parameter. -/
def Params.get (p : Params) : PField → PVal
  | .upgradeVoteRounds => .nat p.upgradeVoteRounds
  | .upgradeThreshold => .nat p.upgradeThreshold
  | .defaultUpgradeWaitRounds => .nat p.defaultUpgradeWaitRounds
  | .minUpgradeWaitRounds => .nat p.minUpgradeWaitRounds
  | .maxUpgradeWaitRounds => .nat p.maxUpgradeWaitRounds
  | .maxVersionStringLen => .nat p.maxVersionStringLen
  | .maxTxBytesPerBlock => .nat p.maxTxBytesPerBlock
  | .maxTxNoteBytes => .nat p.maxTxNoteBytes
  | .maxTxLife => .nat p.maxTxLife
  | .approvedUpgrades => .upgrades p.approvedUpgrades
  | .supportGenesisHash => .bool p.supportGenesisHash
  | .requireGenesisHash => .bool p.requireGenesisHash
  | .defaultKeyDilution => .nat p.defaultKeyDilution
  | .minBalance => .nat p.minBalance
  | .minTxFee => .nat p.minTxFee
  | .enableFeePooling => .bool p.enableFeePooling
  | .enableAppCostPooling => .bool p.enableAppCostPooling
  | .rewardUnit => .nat p.rewardUnit
  | .rewardsRateRefreshInterval => .nat p.rewardsRateRefreshInterval
  | .seedLookback => .nat p.seedLookback
  | .seedRefreshInterval => .nat p.seedRefreshInterval
  | .maxBalLookback => .nat p.maxBalLookback
  | .numProposers => .nat p.numProposers
  | .softCommitteeSize => .nat p.softCommitteeSize
  | .softCommitteeThreshold => .nat p.softCommitteeThreshold
  | .certCommitteeSize => .nat p.certCommitteeSize
  | .certCommitteeThreshold => .nat p.certCommitteeThreshold
  | .nextCommitteeSize => .nat p.nextCommitteeSize
  | .nextCommitteeThreshold => .nat p.nextCommitteeThreshold
  | .lateCommitteeSize => .nat p.lateCommitteeSize
  | .lateCommitteeThreshold => .nat p.lateCommitteeThreshold
  | .redoCommitteeSize => .nat p.redoCommitteeSize
  | .redoCommitteeThreshold => .nat p.redoCommitteeThreshold
  | .downCommitteeSize => .nat p.downCommitteeSize
  | .downCommitteeThreshold => .nat p.downCommitteeThreshold
  | .agreementFilterTimeout => .nat p.agreementFilterTimeout
  | .agreementFilterTimeoutPeriod0 => .nat p.agreementFilterTimeoutPeriod0
  | .fastRecoveryLambda => .nat p.fastRecoveryLambda
  | .fastPartitionRecovery => .bool p.fastPartitionRecovery
  | .paysetCommit => .payset p.paysetCommit
  | .maxTimestampIncrement => .nat p.maxTimestampIncrement
  | .supportSignedTxInBlock => .bool p.supportSignedTxInBlock
  | .forceNonParticipatingFeeSink => .bool p.forceNonParticipatingFeeSink
  | .applyData => .bool p.applyData
  | .rewardsInApplyData => .bool p.rewardsInApplyData
  | .credentialDomainSeparationEnabled => .bool p.credentialDomainSeparationEnabled
  | .supportBecomeNonParticipatingTransactions => .bool p.supportBecomeNonParticipatingTransactions
  | .pendingResidueRewards => .bool p.pendingResidueRewards
  | .asset => .bool p.asset
  | .maxAssetsPerAccount => .nat p.maxAssetsPerAccount
  | .maxAssetNameBytes => .nat p.maxAssetNameBytes
  | .maxAssetUnitNameBytes => .nat p.maxAssetUnitNameBytes
  | .maxAssetUrlBytes => .nat p.maxAssetUrlBytes
  | .txCounter => .bool p.txCounter
  | .supportTxGroups => .bool p.supportTxGroups
  | .maxTxGroupSize => .nat p.maxTxGroupSize
  | .supportTransactionLeases => .bool p.supportTransactionLeases
  | .fixTransactionLeases => .bool p.fixTransactionLeases
  | .logicSigVersion => .nat p.logicSigVersion
  | .logicSigMaxSize => .nat p.logicSigMaxSize
  | .logicSigMaxCost => .nat p.logicSigMaxCost
  | .maxAssetDecimals => .nat p.maxAssetDecimals
  | .supportRekeying => .bool p.supportRekeying
  | .application => .bool p.application
  | .maxAppArgs => .nat p.maxAppArgs
  | .maxAppTotalArgLen => .nat p.maxAppTotalArgLen
  | .maxAppProgramLen => .nat p.maxAppProgramLen
  | .maxAppTotalProgramLen => .nat p.maxAppTotalProgramLen
  | .maxExtraAppProgramPages => .nat p.maxExtraAppProgramPages
  | .maxAppTxAccounts => .nat p.maxAppTxAccounts
  | .maxAppTxForeignApps => .nat p.maxAppTxForeignApps
  | .maxAppTxForeignAssets => .nat p.maxAppTxForeignAssets
  | .maxAppTotalTxReferences => .nat p.maxAppTotalTxReferences
  | .maxAppProgramCost => .nat p.maxAppProgramCost
  | .maxAppKeyLen => .nat p.maxAppKeyLen
  | .maxAppBytesValueLen => .nat p.maxAppBytesValueLen
  | .maxAppSumKeyValueLens => .nat p.maxAppSumKeyValueLens
  | .maxInnerTransactions => .nat p.maxInnerTransactions
  | .maxAppsCreated => .nat p.maxAppsCreated
  | .maxAppsOptedIn => .nat p.maxAppsOptedIn
  | .appFlatParamsMinBalance => .nat p.appFlatParamsMinBalance
  | .appFlatOptInMinBalance => .nat p.appFlatOptInMinBalance
  | .schemaMinBalancePerEntry => .nat p.schemaMinBalancePerEntry
  | .schemaUintMinBalance => .nat p.schemaUintMinBalance
  | .schemaBytesMinBalance => .nat p.schemaBytesMinBalance
  | .maxLocalSchemaEntries => .nat p.maxLocalSchemaEntries
  | .maxGlobalSchemaEntries => .nat p.maxGlobalSchemaEntries
  | .maximumMinimumBalance => .nat p.maximumMinimumBalance
  | .compactCertRounds => .nat p.compactCertRounds
  | .compactCertTopVoters => .nat p.compactCertTopVoters
  | .compactCertVotersLookback => .nat p.compactCertVotersLookback
  | .compactCertWeightThreshold => .nat p.compactCertWeightThreshold
  | .compactCertSecKq => .nat p.compactCertSecKq
  | .enableAssetCloseAmount => .bool p.enableAssetCloseAmount
  | .initialRewardsRateCalculation => .bool p.initialRewardsRateCalculation
  | .noEmptyLocalDeltas => .bool p.noEmptyLocalDeltas
  | .enableKeyregCoherencyCheck => .bool p.enableKeyregCoherencyCheck
  | .enableExtraPagesOnAppUpdate => .bool p.enableExtraPagesOnAppUpdate

/-- The number of a value. -/
def PVal.nat! : PVal → Nat
  | .nat n => n
  | _ => 0

/-- The flag of a value. -/
def PVal.flag! : PVal → Bool
  | .bool b => b
  | _ => false

/-- The upgrades of a value. -/
def PVal.ups! : PVal → List (Version × Nat)
  | .upgrades l => l
  | _ => []

/-- The payset commitment of a value. -/
def PVal.commit! : PVal → PaysetCommit
  | .payset p => p
  | _ => .unsupported

/-- Parameters from the value of each. -/
def Params.build (g : PField → PVal) : Params :=
  { upgradeVoteRounds := (g .upgradeVoteRounds).nat!,
    upgradeThreshold := (g .upgradeThreshold).nat!,
    defaultUpgradeWaitRounds := (g .defaultUpgradeWaitRounds).nat!,
    minUpgradeWaitRounds := (g .minUpgradeWaitRounds).nat!,
    maxUpgradeWaitRounds := (g .maxUpgradeWaitRounds).nat!,
    maxVersionStringLen := (g .maxVersionStringLen).nat!,
    maxTxBytesPerBlock := (g .maxTxBytesPerBlock).nat!,
    maxTxNoteBytes := (g .maxTxNoteBytes).nat!,
    maxTxLife := (g .maxTxLife).nat!,
    approvedUpgrades := (g .approvedUpgrades).ups!,
    supportGenesisHash := (g .supportGenesisHash).flag!,
    requireGenesisHash := (g .requireGenesisHash).flag!,
    defaultKeyDilution := (g .defaultKeyDilution).nat!,
    minBalance := (g .minBalance).nat!,
    minTxFee := (g .minTxFee).nat!,
    enableFeePooling := (g .enableFeePooling).flag!,
    enableAppCostPooling := (g .enableAppCostPooling).flag!,
    rewardUnit := (g .rewardUnit).nat!,
    rewardsRateRefreshInterval := (g .rewardsRateRefreshInterval).nat!,
    seedLookback := (g .seedLookback).nat!,
    seedRefreshInterval := (g .seedRefreshInterval).nat!,
    maxBalLookback := (g .maxBalLookback).nat!,
    numProposers := (g .numProposers).nat!,
    softCommitteeSize := (g .softCommitteeSize).nat!,
    softCommitteeThreshold := (g .softCommitteeThreshold).nat!,
    certCommitteeSize := (g .certCommitteeSize).nat!,
    certCommitteeThreshold := (g .certCommitteeThreshold).nat!,
    nextCommitteeSize := (g .nextCommitteeSize).nat!,
    nextCommitteeThreshold := (g .nextCommitteeThreshold).nat!,
    lateCommitteeSize := (g .lateCommitteeSize).nat!,
    lateCommitteeThreshold := (g .lateCommitteeThreshold).nat!,
    redoCommitteeSize := (g .redoCommitteeSize).nat!,
    redoCommitteeThreshold := (g .redoCommitteeThreshold).nat!,
    downCommitteeSize := (g .downCommitteeSize).nat!,
    downCommitteeThreshold := (g .downCommitteeThreshold).nat!,
    agreementFilterTimeout := (g .agreementFilterTimeout).nat!,
    agreementFilterTimeoutPeriod0 := (g .agreementFilterTimeoutPeriod0).nat!,
    fastRecoveryLambda := (g .fastRecoveryLambda).nat!,
    fastPartitionRecovery := (g .fastPartitionRecovery).flag!,
    paysetCommit := (g .paysetCommit).commit!,
    maxTimestampIncrement := (g .maxTimestampIncrement).nat!,
    supportSignedTxInBlock := (g .supportSignedTxInBlock).flag!,
    forceNonParticipatingFeeSink := (g .forceNonParticipatingFeeSink).flag!,
    applyData := (g .applyData).flag!,
    rewardsInApplyData := (g .rewardsInApplyData).flag!,
    credentialDomainSeparationEnabled := (g .credentialDomainSeparationEnabled).flag!,
    supportBecomeNonParticipatingTransactions := (g .supportBecomeNonParticipatingTransactions).flag!,
    pendingResidueRewards := (g .pendingResidueRewards).flag!,
    asset := (g .asset).flag!,
    maxAssetsPerAccount := (g .maxAssetsPerAccount).nat!,
    maxAssetNameBytes := (g .maxAssetNameBytes).nat!,
    maxAssetUnitNameBytes := (g .maxAssetUnitNameBytes).nat!,
    maxAssetUrlBytes := (g .maxAssetUrlBytes).nat!,
    txCounter := (g .txCounter).flag!,
    supportTxGroups := (g .supportTxGroups).flag!,
    maxTxGroupSize := (g .maxTxGroupSize).nat!,
    supportTransactionLeases := (g .supportTransactionLeases).flag!,
    fixTransactionLeases := (g .fixTransactionLeases).flag!,
    logicSigVersion := (g .logicSigVersion).nat!,
    logicSigMaxSize := (g .logicSigMaxSize).nat!,
    logicSigMaxCost := (g .logicSigMaxCost).nat!,
    maxAssetDecimals := (g .maxAssetDecimals).nat!,
    supportRekeying := (g .supportRekeying).flag!,
    application := (g .application).flag!,
    maxAppArgs := (g .maxAppArgs).nat!,
    maxAppTotalArgLen := (g .maxAppTotalArgLen).nat!,
    maxAppProgramLen := (g .maxAppProgramLen).nat!,
    maxAppTotalProgramLen := (g .maxAppTotalProgramLen).nat!,
    maxExtraAppProgramPages := (g .maxExtraAppProgramPages).nat!,
    maxAppTxAccounts := (g .maxAppTxAccounts).nat!,
    maxAppTxForeignApps := (g .maxAppTxForeignApps).nat!,
    maxAppTxForeignAssets := (g .maxAppTxForeignAssets).nat!,
    maxAppTotalTxReferences := (g .maxAppTotalTxReferences).nat!,
    maxAppProgramCost := (g .maxAppProgramCost).nat!,
    maxAppKeyLen := (g .maxAppKeyLen).nat!,
    maxAppBytesValueLen := (g .maxAppBytesValueLen).nat!,
    maxAppSumKeyValueLens := (g .maxAppSumKeyValueLens).nat!,
    maxInnerTransactions := (g .maxInnerTransactions).nat!,
    maxAppsCreated := (g .maxAppsCreated).nat!,
    maxAppsOptedIn := (g .maxAppsOptedIn).nat!,
    appFlatParamsMinBalance := (g .appFlatParamsMinBalance).nat!,
    appFlatOptInMinBalance := (g .appFlatOptInMinBalance).nat!,
    schemaMinBalancePerEntry := (g .schemaMinBalancePerEntry).nat!,
    schemaUintMinBalance := (g .schemaUintMinBalance).nat!,
    schemaBytesMinBalance := (g .schemaBytesMinBalance).nat!,
    maxLocalSchemaEntries := (g .maxLocalSchemaEntries).nat!,
    maxGlobalSchemaEntries := (g .maxGlobalSchemaEntries).nat!,
    maximumMinimumBalance := (g .maximumMinimumBalance).nat!,
    compactCertRounds := (g .compactCertRounds).nat!,
    compactCertTopVoters := (g .compactCertTopVoters).nat!,
    compactCertVotersLookback := (g .compactCertVotersLookback).nat!,
    compactCertWeightThreshold := (g .compactCertWeightThreshold).nat!,
    compactCertSecKq := (g .compactCertSecKq).nat!,
    enableAssetCloseAmount := (g .enableAssetCloseAmount).flag!,
    initialRewardsRateCalculation := (g .initialRewardsRateCalculation).flag!,
    noEmptyLocalDeltas := (g .noEmptyLocalDeltas).flag!,
    enableKeyregCoherencyCheck := (g .enableKeyregCoherencyCheck).flag!,
    enableExtraPagesOnAppUpdate := (g .enableExtraPagesOnAppUpdate).flag! }

/-! ## Names of variants -/

/-- The name of a version in the file: serde uses the name of the variant, not `Display`. -/
def Version.ident : Version → Str
  | .deprecatedV0 => ['D', 'e', 'p', 'r', 'e', 'c', 'a', 't', 'e', 'd', 'V', '0']
  | .deprecatedV1 => ['D', 'e', 'p', 'r', 'e', 'c', 'a', 't', 'e', 'd', 'V', '1']
  | .deprecatedV2 => ['D', 'e', 'p', 'r', 'e', 'c', 'a', 't', 'e', 'd', 'V', '2']
  | .deprecatedV3 => ['D', 'e', 'p', 'r', 'e', 'c', 'a', 't', 'e', 'd', 'V', '3']
  | .deprecatedV4 => ['D', 'e', 'p', 'r', 'e', 'c', 'a', 't', 'e', 'd', 'V', '4']
  | .deprecatedV5 => ['D', 'e', 'p', 'r', 'e', 'c', 'a', 't', 'e', 'd', 'V', '5']
  | .deprecatedV6 => ['D', 'e', 'p', 'r', 'e', 'c', 'a', 't', 'e', 'd', 'V', '6']
  | .v7 => ['V', '7']
  | .v8 => ['V', '8']
  | .v9 => ['V', '9']
  | .v10 => ['V', '1', '0']
  | .v11 => ['V', '1', '1']
  | .v12 => ['V', '1', '2']
  | .v13 => ['V', '1', '3']
  | .v14 => ['V', '1', '4']
  | .v15 => ['V', '1', '5']
  | .v16 => ['V', '1', '6']
  | .v17 => ['V', '1', '7']
  | .v18 => ['V', '1', '8']
  | .v19 => ['V', '1', '9']
  | .v20 => ['V', '2', '0']
  | .v21 => ['V', '2', '1']
  | .v22 => ['V', '2', '2']
  | .v23 => ['V', '2', '3']
  | .v24 => ['V', '2', '4']
  | .v25 => ['V', '2', '5']
  | .v26 => ['V', '2', '6']
  | .v27 => ['V', '2', '7']
  | .v28 => ['V', '2', '8']
  | .v29 => ['V', '2', '9']
  | .v30 => ['V', '3', '0']
  | .future => ['F', 'u', 't', 'u', 'r', 'e']

/-- The version with a name. -/
def Version.ofIdent (s : Str) : Option Version := Version.all.find? fun v => v.ident = s

/-- All kinds of payset commitment (lines 359-370). -/
def PaysetCommit.all : List PaysetCommit := [.unsupported, .flat, .merkle]

/-- The name of a payset commitment in the file. -/
def PaysetCommit.ident : PaysetCommit → Str
  | .unsupported => ['U', 'n', 's', 'u', 'p', 'p', 'o', 'r', 't', 'e', 'd']
  | .flat => ['F', 'l', 'a', 't']
  | .merkle => ['M', 'e', 'r', 'k', 'l', 'e']

/-- The payset commitment with a name. -/
def PaysetCommit.ofIdent (s : Str) : Option PaysetCommit := PaysetCommit.all.find? fun v => v.ident = s

/-! ## Writing -/

/-- The JSON of a value: `Serialize` of the types of the fields. -/
def pvalJson : PTy → PVal → Json
  | .dur, .nat n => .obj [(secsName, .num (n / 1000000000 : Nat)), (nanosName, .num (n % 1000000000 : Nat))]
  | _, .nat n => .num n
  | _, .bool b => .bool b
  | _, .payset c => .str c.ident
  | _, .upgrades l => .obj (l.map fun e => (e.1.ident, .num e.2))

/-- The JSON of `ConsensusParams`: an object with every field in the order of the source. -/
def paramsJson (p : Params) : Json := .obj (PField.all.map fun f => (f.name, pvalJson f.ty (p.get f)))

/-- The JSON of `ConsensusProtocols`, a newtype around a map: an object with one member per entry, in the order of
iteration. -/
def tableJson (t : Protocols) : Json := .obj (t.map fun e => (e.1.ident, paramsJson e.2))

/-! ## Reading -/

/-- `HashMap::insert`; the order of the entries is that of insertion. -/
def putLast {V : Type} (l : List (Version × V)) (v : Version) (x : V) : List (Version × V) :=
  l.filter (fun e => e.1 ≠ v) ++ [(v, x)]

/-- The loop reading a map whose keys are versions: an unknown name is an error, of two equal keys the later one stays. -/
def mapLoop {V : Type} (dec : Json → Option V) (acc : List (Version × V)) : List (Str × Json) → Option (List (Version × V))
  | [] => some acc
  | (k, j) :: l =>
    match Version.ofIdent k, dec j with
    | some v, some x => mapLoop dec (putLast acc v x) l
    | _, _ => none

/-- A unit variant: its name, or an object with its name and `null`. -/
def decPayset : Json → Option PaysetCommit
  | .str s => PaysetCommit.ofIdent s
  | .obj [(s, .null)] => PaysetCommit.ofIdent s
  | _ => none

/-- A duration in nanoseconds. -/
def durNanos : Val → Option Nat
  | .dur s n => some (s * 1000000000 + n)
  | _ => none

/-- `Deserialize` of the types of the fields. -/
def decPVal : PTy → Json → Option PVal
  | .u32, j => (decNat u32Lim j).map .nat
  | .u64, j => (decNat u64Lim j).map .nat
  | .bool, .bool b => some (.bool b)
  | .dur, j => ((decVal .dur j).bind durNanos).map .nat
  | .payset, j => (decPayset j).map .payset
  | .upgrades, .obj l => (mapLoop (decNat u64Lim) [] l).map .upgrades
  | _, _ => none

/-- The parameter with a name. -/
def PField.ofName (s : Str) : Option PField := PField.all.find? fun f => f.name = s

/-- The parameters read so far. -/
abbrev PPartial := PField → Option PVal

/-- One more parameter. -/
def PPartial.set (st : PPartial) (f : PField) (v : PVal) : PPartial := fun g => if g = f then some v else st g

/-- The loop over the members of an object: unknown names are skipped, a name occurring twice is an error. -/
def readParams (st : PPartial) : List (Str × Json) → Option PPartial
  | [] => some st
  | (k, j) :: l =>
    match PField.ofName k with
    | none => readParams st l
    | some f =>
      match st f, decPVal f.ty j with
      | none, some v => readParams (st.set f v) l
      | _, _ => none

/-- The loop over an array: one value per parameter. -/
def readParamSeq (st : PPartial) : List PField → List Json → Option PPartial
  | [], [] => some st
  | f :: fs, j :: js =>
    match decPVal f.ty j with
    | some v => readParamSeq (st.set f v) fs js
    | none => none
  | _, _ => none

/-- All parameters must have been read. -/
def finishParams (st : PPartial) : Option Params :=
  if PField.all.all (fun f => (st f).isSome) then some (.build fun f => (st f).getD (.nat 0)) else none

/-- `Deserialize` of `ConsensusParams`. -/
def decodeParams : Json → Option Params
  | .obj l => (readParams (fun _ => none) l).bind finishParams
  | .arr l => (readParamSeq (fun _ => none) PField.all l).bind finishParams
  | _ => none

/-- `Deserialize` of `ConsensusProtocols`. -/
def decodeTable : Json → Option Protocols
  | .obj l => mapLoop decodeParams [] l
  | _ => none

/-! ## Files -/

/-- `CONFIGURABLE_CONSENSUS_PROTOCOLS_FILENAME` (src/config/mod.rs line 479). -/
def overrideFilename : Str := ['c', 'o', 'n', 's', 'e', 'n', 's', 'u', 's', '.', 'j', 's', 'o', 'n']

/-- `save_configurable_consensus` (lines 492-510) on files: the files afterwards. -/
def saveFile (J : JsonLib) (fs : Fs) (dir : Str) (params : Protocols) : Res FileError Fs :=
  let path := joinPath dir overrideFilename
  let written : Fs := fun p => if p = path then some (J.print (tableJson params)) else fs p
  if params.isEmpty then
    match fs path with
    | none => .err .notFound
    | some _ => .ok written
  else .ok written

/-- `preload_configurable_consensus_protocols` (lines 591-605) on files. -/
def preloadFile (J : JsonLib) (fs : Fs) (dir : Str) (consensus : Protocols) : Res FileError Protocols :=
  match fs (joinPath dir overrideFilename) with
  | none => .ok consensus
  | some content =>
    match (J.parse content).bind decodeTable with
    | none => .err .other
    | some t =>
      match merge consensus t with
      | .ok r => .ok r
      | .err _ => .panic
      | .panic => .panic

/-- `load_configurable_consensus_protocols` (lines 573-587) on files: the new value of `consensus`. -/
def loadFile (J : JsonLib) (fs : Fs) (dir : Str) (consensus : Protocols) : Res FileError Protocols := do
  let n ← preloadFile J fs dir consensus
  if n.isEmpty then pure consensus else pure n

/-- `CONSENSUS` (lines 383-394): the table every part of the program uses; `unwrap` of an error crashes. -/
def globalConsensus (J : JsonLib) (fs : Fs) : Res FileError Protocols :=
  match loadFile J fs ['.'] builtin with
  | .ok t => .ok t
  | .err _ => .panic
  | .panic => .panic

end Verif.Consensus
