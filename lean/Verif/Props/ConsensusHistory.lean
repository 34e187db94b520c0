import Verif.Model.ConsensusFile
import Verif.Props.Consensus
/-!
# C172: the parameters of the protocol versions
-/

namespace Verif.Props
open Verif Verif.Consensus

/-- How a parameter developed. -/
inductive Development where
  /-- the numbers that it was set to, with the version in which it was; zero before -/
  | number (changes : List (Nat × Nat))
  /-- a flag, and the version since which it is set -/
  | enabledIn (version : Nat)
  /-- how the transactions of a block are committed to -/
  | commitment
  /-- the approved upgrades -/
  | upgrades

/-- Specification: the history of each parameter (`config/consensus.go` of go-algorand). Versions are numbered; the version under
development is number 31. Times are nanoseconds. -/
def history : PField → Development
  | .upgradeVoteRounds => .number [(7, 10000)]
  | .upgradeThreshold => .number [(7, 9000)]
  | .defaultUpgradeWaitRounds => .number [(7, 10000), (20, 140000)]
  | .minUpgradeWaitRounds => .number [(22, 10000)]
  | .maxUpgradeWaitRounds => .number [(22, 150000)]
  | .maxVersionStringLen => .number [(7, 64), (12, 128)]
  | .maxTxBytesPerBlock => .number [(7, 1000000)]
  | .maxTxNoteBytes => .number [(7, 1024)]
  | .maxTxLife => .number [(7, 1000)]
  | .supportGenesisHash => .enabledIn 14
  | .requireGenesisHash => .enabledIn 16
  | .defaultKeyDilution => .number [(7, 10000)]
  | .minBalance => .number [(7, 10000), (9, 100000)]
  | .minTxFee => .number [(7, 1000)]
  | .enableFeePooling => .enabledIn 28
  | .enableAppCostPooling => .enabledIn 30
  | .rewardUnit => .number [(7, 1000000)]
  | .rewardsRateRefreshInterval => .number [(7, 500000)]
  | .seedLookback => .number [(7, 2)]
  | .seedRefreshInterval => .number [(7, 100), (8, 80)]
  | .maxBalLookback => .number [(7, 320)]
  | .numProposers => .number [(7, 30), (8, 9), (10, 20)]
  | .softCommitteeSize => .number [(7, 2500), (8, 2990)]
  | .softCommitteeThreshold => .number [(7, 1870), (8, 2267)]
  | .certCommitteeSize => .number [(7, 1000), (8, 1500)]
  | .certCommitteeThreshold => .number [(7, 720), (8, 1112)]
  | .nextCommitteeSize => .number [(7, 10000), (8, 5000)]
  | .nextCommitteeThreshold => .number [(7, 7750), (8, 3838)]
  | .lateCommitteeSize => .number [(7, 10000), (8, 5000), (10, 500)]
  | .lateCommitteeThreshold => .number [(7, 7750), (8, 3838), (10, 320)]
  | .redoCommitteeSize => .number [(7, 10000), (8, 5000), (10, 2400)]
  | .redoCommitteeThreshold => .number [(7, 7750), (8, 3838), (10, 1768)]
  | .downCommitteeSize => .number [(7, 10000), (8, 5000), (10, 6000)]
  | .downCommitteeThreshold => .number [(7, 7750), (8, 3838), (10, 4560)]
  | .agreementFilterTimeout => .number [(7, 4000000000)]
  | .agreementFilterTimeoutPeriod0 => .number [(7, 4000000000)]
  | .fastRecoveryLambda => .number [(7, 300000000000)]
  | .fastPartitionRecovery => .enabledIn 10
  | .maxTimestampIncrement => .number [(7, 25)]
  | .supportSignedTxInBlock => .enabledIn 11
  | .forceNonParticipatingFeeSink => .enabledIn 15
  | .applyData => .enabledIn 14
  | .rewardsInApplyData => .enabledIn 15
  | .credentialDomainSeparationEnabled => .enabledIn 16
  | .supportBecomeNonParticipatingTransactions => .enabledIn 18
  | .pendingResidueRewards => .enabledIn 18
  | .asset => .enabledIn 18
  | .maxAssetsPerAccount => .number [(18, 1000)]
  | .maxAssetNameBytes => .number [(18, 32)]
  | .maxAssetUnitNameBytes => .number [(18, 8)]
  | .maxAssetUrlBytes => .number [(18, 32), (28, 96)]
  | .txCounter => .enabledIn 18
  | .supportTxGroups => .enabledIn 18
  | .maxTxGroupSize => .number [(7, 1), (18, 16)]
  | .supportTransactionLeases => .enabledIn 18
  | .fixTransactionLeases => .enabledIn 23
  | .logicSigVersion => .number [(18, 1), (24, 2), (26, 3), (28, 4), (30, 5)]
  | .logicSigMaxSize => .number [(18, 1000)]
  | .logicSigMaxCost => .number [(18, 20000)]
  | .maxAssetDecimals => .number [(20, 19)]
  | .supportRekeying => .enabledIn 24
  | .application => .enabledIn 24
  | .maxAppArgs => .number [(24, 16)]
  | .maxAppTotalArgLen => .number [(24, 2048)]
  | .maxAppProgramLen => .number [(24, 1024), (28, 2048)]
  | .maxAppTotalProgramLen => .number [(24, 2048)]
  | .maxExtraAppProgramPages => .number [(28, 3)]
  | .maxAppTxAccounts => .number [(24, 4)]
  | .maxAppTxForeignApps => .number [(24, 2), (28, 8)]
  | .maxAppTxForeignAssets => .number [(24, 2), (28, 8)]
  | .maxAppTotalTxReferences => .number [(24, 8)]
  | .maxAppProgramCost => .number [(24, 700)]
  | .maxAppKeyLen => .number [(24, 64)]
  | .maxAppBytesValueLen => .number [(24, 64), (28, 128)]
  | .maxAppSumKeyValueLens => .number [(24, 128)]
  | .maxInnerTransactions => .number [(30, 16)]
  | .maxAppsCreated => .number [(24, 10)]
  | .maxAppsOptedIn => .number [(24, 10), (30, 50)]
  | .appFlatParamsMinBalance => .number [(24, 100000)]
  | .appFlatOptInMinBalance => .number [(24, 100000)]
  | .schemaMinBalancePerEntry => .number [(24, 25000)]
  | .schemaUintMinBalance => .number [(24, 3500)]
  | .schemaBytesMinBalance => .number [(24, 25000)]
  | .maxLocalSchemaEntries => .number [(24, 16)]
  | .maxGlobalSchemaEntries => .number [(24, 64)]
  | .maximumMinimumBalance => .number [(24, 100100000)]
  | .compactCertRounds => .number [(31, 128)]
  | .compactCertTopVoters => .number [(31, 1048576)]
  | .compactCertVotersLookback => .number [(31, 16)]
  | .compactCertWeightThreshold => .number [(31, 1288490188)]
  | .compactCertSecKq => .number [(31, 128)]
  | .enableAssetCloseAmount => .enabledIn 25
  | .initialRewardsRateCalculation => .enabledIn 26
  | .noEmptyLocalDeltas => .enabledIn 27
  | .enableKeyregCoherencyCheck => .enabledIn 28
  | .enableExtraPagesOnAppUpdate => .enabledIn 29
  | .paysetCommit => .commitment
  | .approvedUpgrades => .upgrades

/-- Specification: the approved upgrades of each version, with the delays in rounds. -/
def approvedBy : Nat → List (Nat × Nat)
  | 7 => [(8, 0)]
  | 8 => [(9, 0)]
  | 9 => [(10, 0)]
  | 10 => [(11, 0)]
  | 11 => [(12, 0)]
  | 12 => [(13, 0)]
  | 13 => [(14, 0)]
  | 14 => [(15, 0)]
  | 15 => [(16, 0)]
  | 16 => [(17, 0)]
  | 17 => [(19, 0)]
  | 18 => [(19, 0)]
  | 19 => [(20, 0)]
  | 20 => [(21, 0)]
  | 21 => [(23, 0)]
  | 22 => [(23, 10000)]
  | 23 => [(24, 140000)]
  | 24 => [(26, 140000)]
  | 25 => [(26, 140000)]
  | 26 => [(27, 60000)]
  | 27 => [(28, 140000)]
  | 28 => [(29, 60000)]
  | 29 => [(30, 140000)]
  | _ => []

/-- Specification: the name of each version (`protocol/consensus.go`): from version 13 on the place of its text. -/
def versionName : Nat → String
  | 13 => "https://github.com/algorand/spec/tree/0c8a9dc44d7368cc266d5407b79fb3311f4fc795"
  | 14 => "https://github.com/algorand/spec/tree/2526b6ae062b4fe5e163e06e41e1d9b9219135a9"
  | 15 => "https://github.com/algorand/spec/tree/a26ed78ed8f834e2b9ccb6eb7d3ee9f629a6e622"
  | 16 => "https://github.com/algorand/spec/tree/22726c9dcd12d9cddce4a8bd7e8ccaa707f74101"
  | 17 => "https://github.com/algorandfoundation/specs/tree/5615adc36bad610c7f165fa2967f4ecfa75125f0"
  | 18 => "https://github.com/algorandfoundation/specs/tree/6c6bd668be0ab14098e51b37e806c509f7b7e31f"
  | 19 => "https://github.com/algorandfoundation/specs/tree/0e196e82bfd6e327994bec373c4cc81bc878ef5c"
  | 20 => "https://github.com/algorandfoundation/specs/tree/4a9db6a25595c6fd097cf9cc137cc83027787eaa"
  | 21 => "https://github.com/algorandfoundation/specs/tree/8096e2df2da75c3339986317f9abe69d4fa86b4b"
  | 22 => "https://github.com/algorandfoundation/specs/tree/57016b942f6d97e6d4c0688b373bb0a2fc85a1a2"
  | 23 => "https://github.com/algorandfoundation/specs/tree/e5f565421d720c6f75cdd186f7098495caf9101f"
  | 24 => "https://github.com/algorandfoundation/specs/tree/3a83c4c743f8b17adfd73944b4319c25722a6782"
  | 25 => "https://github.com/algorandfoundation/specs/tree/bea19289bf41217d2c0af30522fa222ef1366466"
  | 26 => "https://github.com/algorandfoundation/specs/tree/ac2255d586c4474d4ebcf3809acccb59b7ef34ff"
  | 27 => "https://github.com/algorandfoundation/specs/tree/d050b3cade6d5c664df8bd729bf219f179812595"
  | 28 => "https://github.com/algorandfoundation/specs/tree/65b4ab3266c52c56a0fa7d591754887d68faad0a"
  | 29 => "https://github.com/algorandfoundation/specs/tree/abc54f79f9ad679d2d22f0fb9909fb005c16f8a1"
  | 30 => "https://github.com/algorandfoundation/specs/tree/bc36005dbd776e6d1eaf0c560619bb183215645c"
  | 31 => "future"
  | n => "v" ++ toString n

/-- The number of a version. -/
def versionNumber : Version → Nat
  | .deprecatedV0 => 0 | .deprecatedV1 => 1 | .deprecatedV2 => 2 | .deprecatedV3 => 3 | .deprecatedV4 => 4 | .deprecatedV5 => 5
  | .deprecatedV6 => 6 | .v7 => 7 | .v8 => 8 | .v9 => 9 | .v10 => 10 | .v11 => 11 | .v12 => 12 | .v13 => 13 | .v14 => 14
  | .v15 => 15 | .v16 => 16 | .v17 => 17 | .v18 => 18 | .v19 => 19 | .v20 => 20 | .v21 => 21 | .v22 => 22 | .v23 => 23
  | .v24 => 24 | .v25 => 25 | .v26 => 26 | .v27 => 27 | .v28 => 28 | .v29 => 29 | .v30 => 30 | .future => 31

/-- The number set last, at or before a version. -/
def setLast (changes : List (Nat × Nat)) (n : Nat) : Nat := (((changes.filter fun c => c.1 ≤ n).getLast?).map (·.2)).getD 0

/-- A value is the one that the history gives for the version. -/
def AsInHistory (n : Nat) : Development → PVal → Prop
  | .number l, .nat x => x = setLast l n
  | .enabledIn k, .bool b => b = decide (k ≤ n)
  | .commitment, .payset c => c = if n < 11 then .unsupported else if n < 26 then .flat else .merkle
  | .upgrades, .upgrades l => l.map (fun u => (versionNumber u.1, u.2)) = approvedBy n
  | _, _ => False

instance (n : Nat) (d : Development) (v : PVal) : Decidable (AsInHistory n d v) := by
  cases d <;> cases v <;> unfold AsInHistory <;> infer_instance

theorem history_table : ∀ e ∈ builtin, ∀ f ∈ PField.all, AsInHistory (versionNumber e.1) (history f) (e.2.get f) := by
  decide +kernel

theorem field_all (f : PField) : f ∈ PField.all := by cases f <;> decide +kernel

/-- **C172**: exactly the versions from 7 to the one under development have parameters, and every parameter of every version is the
one of the protocol. -/
theorem C172_parameters (v : Version) :
    ((lookup builtin v).isSome = true ↔ 7 ≤ versionNumber v) ∧
    ∀ p, lookup builtin v = some p → ∀ f, AsInHistory (versionNumber v) (history f) (p.get f) := by
  constructor
  · cases v <;> decide +kernel
  · intro p hp f
    rw [lookup, Option.map_eq_some_iff] at hp
    obtain ⟨e, he, rfl⟩ := hp
    have h1 := List.find?_some he
    have h2 := List.mem_of_find?_eq_some he
    have h3 : e.1 = v := of_decide_eq_true h1
    rw [← h3]
    exact history_table e h2 f (field_all f)

/-- **C172**: every version has the name of the protocol. -/
theorem C172_names (v : Version) : v.str = (versionName (versionNumber v)).toList := by
  cases v <;> decide +kernel

-- the values of some parameters
example : setLast [(7, 10000), (9, 100000)] 30 = 100000 ∧ setLast [(7, 10000), (9, 100000)] 8 = 10000 ∧
    setLast [(24, 10), (30, 50)] 23 = 0 := by decide

end Verif.Props
