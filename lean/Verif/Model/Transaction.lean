import Verif.Model.Teal
import Verif.Model.Multisig
import Verif.Model.HashId
import Verif.Model.Ots
/-!
# Model of `src/data/transactions/{transaction,payment,keyreg,asset,application,compactcert,signed_tx,logicsig}.rs`

Addresses, hashes, keys and signatures are byte strings; strings are their UTF-8 bytes (`String::len` counts bytes).
The errors keep the variant of `InvalidTx` and the values it carries for the message.
The MessagePack encoding of a transaction is a parameter here (see `Verif.Model.Codec` for its model).
-/

namespace Verif.Tx
open Verif Verif.Consensus Verif.Teal Verif.HashId

/-- The all-zero address, hash or lease (`Address::default()`, `CryptoHash::default()`, `[0; 32]`). -/
def zero32 : Bytes := List.replicate 32 0

/-- `SpecialAddresses` (transaction.rs lines 36-39). -/
structure SpecialAddresses where
  feeSink : Bytes
  rewardsPool : Bytes
  deriving Repr, DecidableEq

/-- `Header` (transaction.rs lines 46-81). -/
structure Header where
  sender : Bytes
  fee : Nat
  firstValid : Nat
  lastValid : Nat
  note : Bytes
  genesisId : Bytes
  genesisHash : Bytes
  group : Bytes
  lease : Bytes
  rekeyTo : Bytes
  deriving Repr, DecidableEq

/-- `Header::default()`. -/
def Header.default : Header := ⟨zero32, 0, 0, 0, [], [], zero32, zero32, zero32, zero32⟩

/-- `KeyregFields` (keyreg.rs lines 11-18). -/
structure Keyreg where
  votePk : Bytes
  selectionPk : Bytes
  voteFirst : Nat
  voteLast : Nat
  voteKeyDilution : Nat
  nonparticipation : Bool
  deriving Repr, DecidableEq

/-- `PaymentFields` (payment.rs lines 27-37). -/
structure Payment where
  receiver : Bytes
  amount : Nat
  closeRemainderTo : Option Bytes
  deriving Repr, DecidableEq

/-- `AssetParams` (`src/data/basics/user_balance.rs` lines 305-344). -/
structure AssetParams where
  total : Nat
  decimals : Nat
  defaultFrozen : Bool
  unitName : Bytes
  assetName : Bytes
  url : Bytes
  metadataHash : Bytes
  manager : Bytes
  reserve : Bytes
  freeze : Bytes
  clawback : Bytes
  deriving Repr, DecidableEq

/-- `AssetConfigFields` (asset.rs lines 10-18). -/
structure AssetConfig where
  configAsset : Nat
  assetParams : AssetParams
  deriving Repr, DecidableEq

/-- `AssetTransferFields` (asset.rs lines 22-41). -/
structure AssetTransfer where
  transferAsset : Nat
  assetAmount : Nat
  assetSender : Bytes
  assetReceiver : Bytes
  assetCloseTo : Bytes
  deriving Repr, DecidableEq

/-- `AssetFreezeFields` (asset.rs lines 45-54). -/
structure AssetFreeze where
  freezeAccount : Bytes
  freezeAsset : Nat
  assetFrozen : Bool
  deriving Repr, DecidableEq

/-- `OnCompletion` (application.rs lines 91-116). -/
inductive OnCompletion where
  | noOp
  | optIn
  | closeOut
  | clearState
  | updateApplication
  | deleteApplication
  deriving Repr, DecidableEq

/-- `AppCallFields` (application.rs lines 26-85). -/
structure AppCall where
  applicationId : Nat
  onCompletion : OnCompletion
  applicationArgs : List Bytes
  accounts : List Bytes
  foreignApps : List Nat
  foreignAssets : List Nat
  localStateSchema : Schema
  globalStateSchema : Schema
  approvalProgram : Bytes
  clearStateProgram : Bytes
  extraProgramPages : Nat
  deriving Repr, DecidableEq

/-- `CompactCertFields` (compactcert.rs lines 14-18); `CompactCertType` has the single variant `Basic`. -/
structure CompactCert where
  certRound : Nat
  deriving Repr, DecidableEq

/-- `TxFields` (transaction.rs lines 95-110). -/
inductive Fields where
  | keyreg (f : Keyreg)
  | payment (f : Payment)
  | assetConfig (f : AssetConfig)
  | assetTransfer (f : AssetTransfer)
  | assetFreeze (f : AssetFreeze)
  | appCall (f : AppCall)
  | compactCert (f : CompactCert)
  deriving Repr, DecidableEq

/-- `Transaction` (transaction.rs lines 85-91). -/
structure Transaction where
  header : Header
  fields : Fields
  deriving Repr, DecidableEq

/-- `InvalidTx` and `PaymentError` (errors.rs lines 12-130, payment.rs lines 12-19) with the values that the messages
show; `Unknown`, which nothing returns, is left out. -/
inductive InvalidTx where
  | dead (round firstValid lastValid : Nat)
  | genesisIdMismatch (given expected : Bytes)
  | genesisHashMismatch (given expected : Bytes)
  | genesisHashMissing
  | genesisHashNotAllowed
  | assetTxsNotSupported
  | appTxsNotSupported
  | compactcertTxsNotSupported
  | leasesNotSupported
  | groupsNotSupported
  | rekeyingNotSupported
  | feeLessThanMin (a b : Nat)
  | zeroSender
  | badValidityRange (a b : Nat)
  | excessiveValidityRange (a b : Nat)
  | noteTooBig (a b : Nat)
  | assetNameTooBig (a b : Nat)
  | assetUnitNameTooBig (a b : Nat)
  | assetUrlTooBig (a b : Nat)
  | assetDecimalsTooHigh (a b : Nat)
  | keyregFirstVotingRoundGreaterThanLast
  | keyregNonCoherentVotingKeys
  | keyregOfflineTransactionHasVotingRounds
  | keyregUnsupportedSwitchToNonParticipating
  | keyregGoingOnlineWithNonParticipating
  | keyregGoingOnlineWithZeroVoteLast
  | keyregGoingOnlineWithFirstVoteAfterLastValid
  | changeProgramWithoutUpdate
  | changeAppStateSchema
  | changeExtraProgramPages
  | tooManyAppArgs (a b : Nat)
  | appArgsTotalTooLong (a b : Nat)
  | accountsTooLong (a b : Nat)
  | foreignAppTooLong (a b : Nat)
  | foreignAssetsTooLong (a b : Nat)
  | tooManyReferences (a b : Nat)
  | tooManyExtraProgramPages (a b : Nat)
  | approvalProgramTooLong (a b : Nat)
  | clearStateProgramTooLong (a b : Nat)
  | appProgramsTooLong (a b : Nat)
  | localStateSchemaTooLarge (a b : Nat)
  | globalStateSchemaTooLarge (a b : Nat)
  | ccInvalidSender
  | ccNonZeroFee
  | ccNonEmptyNote
  | ccNonZeroGroup
  | ccNonZeroRekey
  | ccNonZeroLease
  | cannotCloseToSender
  | cannotSpendFromFeeSink
  | cannotCloseFeeSink
  deriving Repr, DecidableEq

/-- `TxContext` / `ExplicitTxContext` (transaction.rs lines 583-614). -/
structure TxContext where
  round : Nat
  proto : Params
  genesisId : Bytes
  genesisHash : Bytes

/-- `Header::alive` (transaction.rs lines 158-196). -/
def alive (h : Header) (tc : TxContext) : Res InvalidTx Unit :=
  if tc.round < h.firstValid ∨ tc.round > h.lastValid then .err (.dead tc.round h.firstValid h.lastValid)
  else if h.genesisId ≠ [] ∧ h.genesisId ≠ tc.genesisId then .err (.genesisIdMismatch h.genesisId tc.genesisId)
  else if tc.proto.supportGenesisHash then
    if h.genesisHash ≠ zero32 ∧ h.genesisHash ≠ tc.genesisHash then
      .err (.genesisHashMismatch h.genesisHash tc.genesisHash)
    else if tc.proto.requireGenesisHash ∧ h.genesisHash = zero32 then .err .genesisHashMissing
    else .ok ()
  else if h.genesisHash ≠ zero32 then .err .genesisHashNotAllowed
  else .ok ()

/-- `PaymentFields::check_spender` (payment.rs lines 40-59). -/
def checkSpender (f : Payment) (h : Header) (spec : SpecialAddresses) : Res InvalidTx Unit :=
  if f.closeRemainderTo = some h.sender then .err .cannotCloseToSender
  else if h.sender = spec.feeSink then
    if f.receiver ≠ spec.rewardsPool then .err .cannotSpendFromFeeSink
    else if f.closeRemainderTo.isSome then .err .cannotCloseFeeSink
    else .ok ()
  else .ok ()

/-- `VrfPublicKey::default()`. -/
def defaultVrfPk : Bytes := zero32

/-- `KeyregFields::check_coherency` (keyreg.rs lines 21-54). `Ots.defaultPk` is `PublicKey::default()`. -/
def checkCoherency (f : Keyreg) (h : Header) : Res InvalidTx Unit :=
  if f.voteFirst > f.voteLast then .err .keyregFirstVotingRoundGreaterThanLast
  else if ¬ ((f.votePk = Ots.defaultPk ∧ f.selectionPk = defaultVrfPk ∧ f.voteKeyDilution = 0) ∨
      (f.votePk ≠ Ots.defaultPk ∧ f.selectionPk ≠ defaultVrfPk ∧ f.voteKeyDilution ≠ 0)) then
    .err .keyregNonCoherentVotingKeys
  else if f.voteKeyDilution = 0 then
    if f.voteFirst ≠ 0 ∨ f.voteLast ≠ 0 then .err .keyregOfflineTransactionHasVotingRounds else .ok ()
  else if f.voteLast = 0 then .err .keyregGoingOnlineWithZeroVoteLast
  else do
    let next ← addU64 h.lastValid 1
    if f.voteFirst > next then .err .keyregGoingOnlineWithFirstVoteAfterLastValid else .ok ()

/-- The check of the nonparticipation flag (transaction.rs lines 246-259). -/
def checkNonParticipation (f : Keyreg) (proto : Params) : Res InvalidTx Unit :=
  if f.nonparticipation then
    if ¬ proto.supportBecomeNonParticipatingTransactions then .err .keyregUnsupportedSwitchToNonParticipating
    else if ¬ (f.votePk = Ots.defaultPk ∨ f.selectionPk = defaultVrfPk) then .err .keyregGoingOnlineWithNonParticipating
    else .ok ()
  else .ok ()

/-- The key registration arm of `is_well_formed` (transaction.rs lines 241-260). -/
def checkKeyreg (f : Keyreg) (h : Header) (proto : Params) : Res InvalidTx Unit :=
  if proto.enableKeyregCoherencyCheck then do
    checkCoherency f h
    checkNonParticipation f proto
  else checkNonParticipation f proto

/-- `StateSchema::default()`. -/
def Schema.default : Schema := ⟨0, 0⟩

/-- The program length checks of the application arm (transaction.rs lines 358-388); `pages` and the products are
`u32`. -/
def checkPrograms (f : AppCall) (proto : Params) (effectiveEpp : Nat) : Res InvalidTx Unit := do
  let pages ← addU32 1 effectiveEpp
  let lim ← mulU32 pages proto.maxAppProgramLen
  if f.approvalProgram.length > lim then .err (.approvalProgramTooLong f.approvalProgram.length lim)
  else if f.clearStateProgram.length > lim then .err (.clearStateProgramTooLong f.clearStateProgram.length lim)
  else do
    let total ← mulU32 pages proto.maxAppTotalProgramLen
    if f.approvalProgram.length + f.clearStateProgram.length > total then
      .err (.appProgramsTooLong (f.approvalProgram.length + f.clearStateProgram.length) lim)
    else if f.localStateSchema.numEntries > proto.maxLocalSchemaEntries then
      .err (.localStateSchemaTooLarge f.localStateSchema.numEntries proto.maxLocalSchemaEntries)
    else if f.globalStateSchema.numEntries > proto.maxGlobalSchemaEntries then
      .err (.globalStateSchemaTooLarge f.globalStateSchema.numEntries proto.maxGlobalSchemaEntries)
    else .ok ()

/-- The sum of argument lengths (transaction.rs lines 304-308), saturating. -/
def argSum (args : List Bytes) : Nat := args.foldl (fun s a => satAdd64 s a.length) 0

/-- The application arm of `is_well_formed` (transaction.rs lines 266-389). -/
def checkAppCall (f : AppCall) (proto : Params) : Res InvalidTx Unit :=
  if ¬ proto.application then .err .appTxsNotSupported
  else if f.applicationId ≠ 0 ∧ f.onCompletion ≠ .updateApplication ∧
      (f.approvalProgram ≠ [] ∨ f.clearStateProgram ≠ []) then .err .changeProgramWithoutUpdate
  else if f.applicationId ≠ 0 ∧ (f.localStateSchema ≠ Schema.default ∨ f.globalStateSchema ≠ Schema.default) then
    .err .changeAppStateSchema
  else if f.applicationId ≠ 0 ∧ f.extraProgramPages ≠ 0 then .err .changeExtraProgramPages
  else if f.applicationArgs.length > proto.maxAppArgs then .err (.tooManyAppArgs f.applicationArgs.length proto.maxAppArgs)
  else if argSum f.applicationArgs > proto.maxAppTotalArgLen then
    .err (.appArgsTotalTooLong (argSum f.applicationArgs) proto.maxAppTotalArgLen)
  else if f.accounts.length > proto.maxAppTxAccounts then .err (.accountsTooLong f.accounts.length proto.maxAppTxAccounts)
  else if f.foreignApps.length > proto.maxAppTxForeignApps then
    .err (.foreignAppTooLong f.foreignApps.length proto.maxAppTxForeignApps)
  else if f.foreignAssets.length > proto.maxAppTxForeignAssets then
    .err (.foreignAssetsTooLong f.foreignAssets.length proto.maxAppTxForeignAssets)
  else if f.accounts.length + f.foreignApps.length + f.foreignAssets.length > proto.maxAppTotalTxReferences then
    .err (.tooManyReferences (f.accounts.length + f.foreignApps.length + f.foreignAssets.length)
      proto.maxAppTotalTxReferences)
  else if f.extraProgramPages > proto.maxExtraAppProgramPages then
    .err (.tooManyExtraProgramPages f.extraProgramPages proto.maxExtraAppProgramPages)
  else checkPrograms f proto
    (if f.applicationId ≠ 0 ∧ proto.enableExtraPagesOnAppUpdate then proto.maxExtraAppProgramPages
      else f.extraProgramPages)

/-- The compact certificate arm of `is_well_formed` (transaction.rs lines 390-411). `ccSender` is
`COMPACT_CERT_SENDER`. -/
def checkCompactCert (ccSender : Bytes) (h : Header) (proto : Params) : Res InvalidTx Unit :=
  if proto.compactCertRounds = 0 then .err .compactcertTxsNotSupported
  else if h.sender ≠ ccSender then .err .ccInvalidSender
  else if h.fee ≠ 0 then .err .ccNonZeroFee
  else if h.note ≠ [] then .err .ccNonEmptyNote
  else if h.group ≠ zero32 then .err .ccNonZeroGroup
  else if h.rekeyTo ≠ zero32 then .err .ccNonZeroRekey
  else if h.lease ≠ zero32 then .err .ccNonZeroLease
  else .ok ()

/-- `COMPACT_CERT_SENDER` (compactcert.rs lines 41-53): the hash of the special address string `CompactCertSender`. -/
def compactCertSender (hash : Bytes → Bytes) : Bytes :=
  hash (hashRep ⟨.specialAddr, asciiBytes
    ['C', 'o', 'm', 'p', 'a', 'c', 't', 'C', 'e', 'r', 't', 'S', 'e', 'n', 'd', 'e', 'r']⟩)

/-- The first match of `is_well_formed` (transaction.rs lines 236-412). -/
def checkFields (ccSender : Bytes) (tx : Transaction) (spec : SpecialAddresses) (proto : Params) : Res InvalidTx Unit :=
  match tx.fields with
  | .payment f => checkSpender f tx.header spec
  | .keyreg f => checkKeyreg f tx.header proto
  | .assetConfig _ => if ¬ proto.asset then .err .assetTxsNotSupported else .ok ()
  | .assetTransfer _ => if ¬ proto.asset then .err .assetTxsNotSupported else .ok ()
  | .assetFreeze _ => if ¬ proto.asset then .err .assetTxsNotSupported else .ok ()
  | .appCall f => checkAppCall f proto
  | .compactCert _ => checkCompactCert ccSender tx.header proto

/-- `if let TxFields::CompactCert(_)`. -/
def Fields.isCompactCert : Fields → Bool
  | .compactCert _ => true
  | _ => false

/-- The checks on fee, validity and note (transaction.rs lines 451-476). -/
def checkCommon (tx : Transaction) (proto : Params) : Res InvalidTx Unit :=
  if ¬ proto.enableFeePooling ∧ tx.header.fee ≤ proto.minTxFee ∧ ¬ tx.fields.isCompactCert then
    .err (.feeLessThanMin tx.header.fee proto.minTxFee)
  else if tx.header.lastValid < tx.header.firstValid then
    .err (.badValidityRange tx.header.firstValid tx.header.lastValid)
  else if tx.header.lastValid - tx.header.firstValid > proto.maxTxLife then
    .err (.excessiveValidityRange tx.header.firstValid tx.header.lastValid)
  else if tx.header.note.length > proto.maxTxNoteBytes then .err (.noteTooBig tx.header.note.length proto.maxTxNoteBytes)
  else .ok ()

/-- The checks on asset parameters (transaction.rs lines 478-501). -/
def checkAsset (tx : Transaction) (proto : Params) : Res InvalidTx Unit :=
  match tx.fields with
  | .assetConfig f =>
    if f.assetParams.assetName.length > proto.maxAssetNameBytes then
      .err (.assetNameTooBig f.assetParams.assetName.length proto.maxAssetNameBytes)
    else if f.assetParams.unitName.length > proto.maxAssetUnitNameBytes then
      .err (.assetUnitNameTooBig f.assetParams.unitName.length proto.maxAssetUnitNameBytes)
    else if f.assetParams.url.length > proto.maxAssetUrlBytes then
      .err (.assetUrlTooBig f.assetParams.url.length proto.maxAssetUrlBytes)
    else if f.assetParams.decimals > proto.maxAssetDecimals then
      .err (.assetDecimalsTooHigh f.assetParams.decimals proto.maxAssetDecimals)
    else .ok ()
  | _ => .ok ()

/-- The final checks on sender, lease, group and rekeying (transaction.rs lines 503-516). -/
def checkSender (tx : Transaction) (spec : SpecialAddresses) (proto : Params) : Res InvalidTx Unit :=
  if tx.header.sender = spec.rewardsPool then .panic
  else if tx.header.sender = zero32 then .err .zeroSender
  else if ¬ proto.supportTransactionLeases ∧ tx.header.lease ≠ zero32 then .err .leasesNotSupported
  else if ¬ proto.supportTxGroups ∧ tx.header.group ≠ zero32 then .err .groupsNotSupported
  else if ¬ proto.supportRekeying ∧ tx.header.rekeyTo ≠ zero32 then .err .rekeyingNotSupported
  else .ok ()

/-- `Transaction::is_well_formed` (transaction.rs lines 231-517). -/
def isWellFormed (ccSender : Bytes) (tx : Transaction) (spec : SpecialAddresses) (proto : Params) : Res InvalidTx Unit := do
  checkFields ccSender tx spec proto
  checkCommon tx proto
  checkAsset tx proto
  checkSender tx spec proto

/-- `Transaction::relevant_addrs` (transaction.rs lines 521-544). -/
def relevantAddrs (tx : Transaction) (spec : SpecialAddresses) : List Bytes :=
  [tx.header.sender, spec.feeSink] ++
  match tx.fields with
  | .payment f => [f.receiver] ++ (match f.closeRemainderTo with | some c => [c] | none => [])
  | .assetTransfer f => [f.assetReceiver] ++ (if f.assetCloseTo ≠ zero32 then [f.assetCloseTo] else []) ++
      (if f.assetSender ≠ zero32 then [f.assetSender] else [])
  | _ => []

/-- `Transaction::match_address` (transaction.rs lines 225-227). -/
def matchAddress (tx : Transaction) (addr : Bytes) (spec : SpecialAddresses) : Bool := (relevantAddrs tx spec).contains addr

/-- `Transaction::tx_amount` (transaction.rs lines 547-552). -/
def txAmount (tx : Transaction) : Nat :=
  match tx.fields with
  | .payment f => f.amount
  | _ => 0

/-- `Transaction::get_receiver_address` (transaction.rs lines 556-562). -/
def receiverAddress (tx : Transaction) : Option Bytes :=
  match tx.fields with
  | .payment f => some f.receiver
  | .assetTransfer f => some f.assetReceiver
  | _ => none

/-- `LogicSig` (logicsig.rs lines 15-24). -/
structure LogicSig where
  logic : Bytes
  sig : Bytes
  msig : Multisig.Msig
  args : List Bytes
  deriving Repr, DecidableEq

/-- `LogicSig::len` (logicsig.rs lines 34-38). -/
def LogicSig.len (l : LogicSig) : Nat := l.args.foldl (fun s a => s + a.length) l.logic.length

/-- `SignedTx` (signed_tx.rs lines 24-34). -/
structure SignedTx where
  sig : Bytes
  msig : Option Multisig.Msig
  lsig : Option LogicSig
  tx : Transaction
  authAddr : Bytes
  deriving Repr, DecidableEq

/-- `SignedTx::authorizer` (signed_tx.rs lines 69-75). -/
def SignedTx.authorizer (s : SignedTx) : Bytes := if s.authAddr = zero32 then s.tx.header.sender else s.authAddr

/-- `Transaction::sign` (transaction.rs lines 206-222); `enc` is `protocol::encode`. -/
def sign (S : Multisig.Scheme) (enc : Transaction → Bytes) (tx : Transaction) (sk : S.Sk) : SignedTx :=
  { sig := S.sign sk (hashRep ⟨.transaction, enc tx⟩), msig := none, lsig := none, tx := tx,
    authAddr := if S.pub sk ≠ tx.header.sender then S.pub sk else zero32 }

/-- The loop of `fee_credit` (signed_tx.rs lines 109-116); the counter is a `u64`. -/
def feeLoop : List SignedTx → Nat → Nat → Res Unit (Nat × Nat)
  | [], count, paid => .ok (count, paid)
  | s :: rest, count, paid => do
    let count ← if s.tx.fields.isCompactCert then addU64 count 1 else .ok count
    feeLoop rest count (satAdd64 paid s.tx.header.fee)

/-- `fee_credit` (signed_tx.rs lines 108-134). -/
def feeCredit (group : List SignedTx) (minFee : Nat) : Res Unit Nat := do
  let (count, paid) ← feeLoop group 0 0
  match checkedMul64 minFee count with
  | none => .err ()
  | some needed => if paid < needed then .err () else .ok (paid - needed)

/-- `AppCallFields::address_by_index` (application.rs lines 168-183). -/
def addressByIndex (f : AppCall) (i : Nat) (sender : Bytes) : Res Unit Bytes :=
  if i = 0 then .ok sender
  else if i > f.accounts.length then .err ()
  else Res.ofOption f.accounts[i - 1]?

/-- `Iterator::position` for equality. -/
def position {α : Type} [DecidableEq α] (a : α) : List α → Option Nat
  | [] => none
  | b :: l => if b = a then some 0 else (position a l).map (· + 1)

/-- `AppCallFields::index_by_address` (application.rs lines 188-204). -/
def indexByAddress (f : AppCall) (target sender : Bytes) : Res Unit Nat :=
  if target = sender then .ok 0
  else match position target f.accounts with
    | some i => addU64 i 1
    | none => .err ()

/-- `AppCallFields::app_id_by_index` (application.rs lines 209-220). -/
def appIdByIndex (f : AppCall) (i : Nat) : Res Unit Nat :=
  if i = 0 then .ok f.applicationId
  else if i > f.foreignApps.length then .err ()
  else Res.ofOption f.foreignApps[i - 1]?

/-- `AppCallFields::index_by_app_id` (application.rs lines 225-237). -/
def indexByAppId (f : AppCall) (app : Nat) : Res Unit Nat :=
  if app = f.applicationId then .ok 0
  else match position app f.foreignApps with
    | some i => addU64 i 1
    | none => .err ()

end Verif.Tx
