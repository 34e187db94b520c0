import Verif.Model.Msgpack
import Verif.Model.Block
/-!
# Model of `protocol::encode` and `protocol::decode` (`src/protocol/codec.rs`) on the hashed and transmitted types

The encoder is `rmp_serde::to_vec` (rmp-serde 1.1.1) driven by the `Serialize` implementations of the types: a struct is
an array of the fields that are not skipped; `Transaction` flattens two structs and is a map with string keys; a newtype
is its content; unit variants are their names; `[u8; N]` and `Vec<u8>` are arrays of integers; `Address` (address.rs
lines 29-33) and ed25519 public keys are binary; signatures are 64-tuples.

The decoder is `rmp_serde::from_slice` driven by the `Deserialize` implementations: a struct is read from an array of its
fields in order or from a map with their names, in any order, other names being ignored. Simplified: map keys that are
not texts are ignored (serde takes some integers as positions of fields and refuses other keys in places), and unit
variants and the `type` of a transaction are only read from their names (serde also takes `{name: nil}` for a variant and
the position for the `type`). `ApplyData` is a parameter.
-/

namespace Verif.Codec
open Verif Verif.Msgpack Verif.HashId Verif.Tx Verif.Multisig Verif.Consensus Verif.Block

/-- The field names that are written as map keys, and the ones of the structs that can be read from a map. -/
inductive Key where
  | snd
  | fee
  | fv
  | lv
  | note
  | gen
  | gh
  | grp
  | lx
  | rekey
  | txType
  | rcv
  | amt
  | close
  | votePk
  | selectionPk
  | voteFirst
  | voteLast
  | voteKeyDilution
  | nonparticipation
  | configAsset
  | assetParams
  | transferAsset
  | assetAmount
  | assetSender
  | assetReceiver
  | assetCloseTo
  | freezeAccount
  | freezeAsset
  | assetFrozen
  | applicationId
  | onCompletion
  | applicationArgs
  | accounts
  | foreignApps
  | foreignAssets
  | localStateSchema
  | globalStateSchema
  | approvalProgram
  | clearStateProgram
  | extraProgramPages
  | certRound
  | certType
  | version
  | threshold
  | subsigs
  | logic
  | sig
  | msig
  | args
  | numUint
  | numByteSlice
  | total
  | decimals
  | defaultFrozen
  | unitName
  | assetName
  | url
  | metadataHash
  | manager
  | reserve
  | freeze
  | clawback
  | key
  | lsig
  | tx
  | authAddr
  deriving Repr, DecidableEq

/-- All keys. -/
def Key.all : List Key :=
  [.snd, .fee, .fv, .lv, .note, .gen, .gh, .grp, .lx, .rekey, .txType, .rcv, .amt, .close, .votePk, .selectionPk, .voteFirst, .voteLast, .voteKeyDilution, .nonparticipation, .configAsset, .assetParams, .transferAsset, .assetAmount, .assetSender, .assetReceiver, .assetCloseTo, .freezeAccount, .freezeAsset, .assetFrozen, .applicationId, .onCompletion, .applicationArgs, .accounts, .foreignApps, .foreignAssets, .localStateSchema, .globalStateSchema, .approvalProgram, .clearStateProgram, .extraProgramPages, .certRound, .certType, .version, .threshold, .subsigs, .logic, .sig, .msig, .args,
    .numUint, .numByteSlice, .total, .decimals, .defaultFrozen, .unitName, .assetName, .url, .metadataHash, .manager, .reserve, .freeze, .clawback, .key, .lsig, .tx, .authAddr]

/-- The name of a key (transaction.rs lines 48-80, 95-110, payment.rs lines 29-36, and the field names of the structs in
keyreg.rs, asset.rs, application.rs, compactcert.rs, multisig.rs, logicsig.rs, signed_tx.rs, teal.rs, user_balance.rs). -/
def Key.chars : Key → List Char
  | .snd => ['s', 'n', 'd']
  | .fee => ['f', 'e', 'e']
  | .fv => ['f', 'v']
  | .lv => ['l', 'v']
  | .note => ['n', 'o', 't', 'e']
  | .gen => ['g', 'e', 'n']
  | .gh => ['g', 'h']
  | .grp => ['g', 'r', 'p']
  | .lx => ['l', 'x']
  | .rekey => ['r', 'e', 'k', 'e', 'y']
  | .txType => ['t', 'y', 'p', 'e']
  | .rcv => ['r', 'c', 'v']
  | .amt => ['a', 'm', 't']
  | .close => ['c', 'l', 'o', 's', 'e']
  | .votePk => ['v', 'o', 't', 'e', '_', 'p', 'k']
  | .selectionPk => ['s', 'e', 'l', 'e', 'c', 't', 'i', 'o', 'n', '_', 'p', 'k']
  | .voteFirst => ['v', 'o', 't', 'e', '_', 'f', 'i', 'r', 's', 't']
  | .voteLast => ['v', 'o', 't', 'e', '_', 'l', 'a', 's', 't']
  | .voteKeyDilution => ['v', 'o', 't', 'e', '_', 'k', 'e', 'y', '_', 'd', 'i', 'l', 'u', 't', 'i', 'o', 'n']
  | .nonparticipation => ['n', 'o', 'n', 'p', 'a', 'r', 't', 'i', 'c', 'i', 'p', 'a', 't', 'i', 'o', 'n']
  | .configAsset => ['c', 'o', 'n', 'f', 'i', 'g', '_', 'a', 's', 's', 'e', 't']
  | .assetParams => ['a', 's', 's', 'e', 't', '_', 'p', 'a', 'r', 'a', 'm', 's']
  | .transferAsset => ['t', 'r', 'a', 'n', 's', 'f', 'e', 'r', '_', 'a', 's', 's', 'e', 't']
  | .assetAmount => ['a', 's', 's', 'e', 't', '_', 'a', 'm', 'o', 'u', 'n', 't']
  | .assetSender => ['a', 's', 's', 'e', 't', '_', 's', 'e', 'n', 'd', 'e', 'r']
  | .assetReceiver => ['a', 's', 's', 'e', 't', '_', 'r', 'e', 'c', 'e', 'i', 'v', 'e', 'r']
  | .assetCloseTo => ['a', 's', 's', 'e', 't', '_', 'c', 'l', 'o', 's', 'e', '_', 't', 'o']
  | .freezeAccount => ['f', 'r', 'e', 'e', 'z', 'e', '_', 'a', 'c', 'c', 'o', 'u', 'n', 't']
  | .freezeAsset => ['f', 'r', 'e', 'e', 'z', 'e', '_', 'a', 's', 's', 'e', 't']
  | .assetFrozen => ['a', 's', 's', 'e', 't', '_', 'f', 'r', 'o', 'z', 'e', 'n']
  | .applicationId => ['a', 'p', 'p', 'l', 'i', 'c', 'a', 't', 'i', 'o', 'n', '_', 'i', 'd']
  | .onCompletion => ['o', 'n', '_', 'c', 'o', 'm', 'p', 'l', 'e', 't', 'i', 'o', 'n']
  | .applicationArgs => ['a', 'p', 'p', 'l', 'i', 'c', 'a', 't', 'i', 'o', 'n', '_', 'a', 'r', 'g', 's']
  | .accounts => ['a', 'c', 'c', 'o', 'u', 'n', 't', 's']
  | .foreignApps => ['f', 'o', 'r', 'e', 'i', 'g', 'n', '_', 'a', 'p', 'p', 's']
  | .foreignAssets => ['f', 'o', 'r', 'e', 'i', 'g', 'n', '_', 'a', 's', 's', 'e', 't', 's']
  | .localStateSchema => ['l', 'o', 'c', 'a', 'l', '_', 's', 't', 'a', 't', 'e', '_', 's', 'c', 'h', 'e', 'm', 'a']
  | .globalStateSchema => ['g', 'l', 'o', 'b', 'a', 'l', '_', 's', 't', 'a', 't', 'e', '_', 's', 'c', 'h', 'e', 'm', 'a']
  | .approvalProgram => ['a', 'p', 'p', 'r', 'o', 'v', 'a', 'l', '_', 'p', 'r', 'o', 'g', 'r', 'a', 'm']
  | .clearStateProgram => ['c', 'l', 'e', 'a', 'r', '_', 's', 't', 'a', 't', 'e', '_', 'p', 'r', 'o', 'g', 'r', 'a', 'm']
  | .extraProgramPages => ['e', 'x', 't', 'r', 'a', '_', 'p', 'r', 'o', 'g', 'r', 'a', 'm', '_', 'p', 'a', 'g', 'e', 's']
  | .certRound => ['c', 'e', 'r', 't', '_', 'r', 'o', 'u', 'n', 'd']
  | .certType => ['c', 'e', 'r', 't', '_', 't', 'y', 'p', 'e']
  | .version => ['v', 'e', 'r', 's', 'i', 'o', 'n']
  | .threshold => ['t', 'h', 'r', 'e', 's', 'h', 'o', 'l', 'd']
  | .subsigs => ['s', 'u', 'b', 's', 'i', 'g', 's']
  | .logic => ['l', 'o', 'g', 'i', 'c']
  | .sig => ['s', 'i', 'g']
  | .msig => ['m', 's', 'i', 'g']
  | .args => ['a', 'r', 'g', 's']
  | .numUint => ['n', 'u', 'm', '_', 'u', 'i', 'n', 't']
  | .numByteSlice => ['n', 'u', 'm', '_', 'b', 'y', 't', 'e', '_', 's', 'l', 'i', 'c', 'e']
  | .total => ['t', 'o', 't', 'a', 'l']
  | .decimals => ['d', 'e', 'c', 'i', 'm', 'a', 'l', 's']
  | .defaultFrozen => ['d', 'e', 'f', 'a', 'u', 'l', 't', '_', 'f', 'r', 'o', 'z', 'e', 'n']
  | .unitName => ['u', 'n', 'i', 't', '_', 'n', 'a', 'm', 'e']
  | .assetName => ['a', 's', 's', 'e', 't', '_', 'n', 'a', 'm', 'e']
  | .url => ['u', 'r', 'l']
  | .metadataHash => ['m', 'e', 't', 'a', 'd', 'a', 't', 'a', '_', 'h', 'a', 's', 'h']
  | .manager => ['m', 'a', 'n', 'a', 'g', 'e', 'r']
  | .reserve => ['r', 'e', 's', 'e', 'r', 'v', 'e']
  | .freeze => ['f', 'r', 'e', 'e', 'z', 'e']
  | .clawback => ['c', 'l', 'a', 'w', 'b', 'a', 'c', 'k']
  | .key => ['k', 'e', 'y']
  | .lsig => ['l', 's', 'i', 'g']
  | .tx => ['t', 'x']
  | .authAddr => ['a', 'u', 't', 'h', '_', 'a', 'd', 'd', 'r']

/-- The bytes of a key. -/
def Key.bytes (k : Key) : Bytes := asciiBytes k.chars

/-- The variant names of `ConsensusVersion` (protocol/consensus.rs lines 18-125). -/
def versionName : Version → List Char
  | .deprecatedV0 => ['D', 'e', 'p', 'r', 'e', 'c', 'a', 't', 'e', 'd', 'V', '0']
  | .deprecatedV1 => ['D', 'e', 'p', 'r', 'e', 'c', 'a', 't', 'e', 'd', 'V', '1']
  | .deprecatedV2 => ['D', 'e', 'p', 'r', 'e', 'c', 'a', 't', 'e', 'd', 'V', '2']
  | .deprecatedV3 => ['D', 'e', 'p', 'r', 'e', 'c', 'a', 't', 'e', 'd', 'V', '3']
  | .deprecatedV4 => ['D', 'e', 'p', 'r', 'e', 'c', 'a', 't', 'e', 'd', 'V', '4']
  | .deprecatedV5 => ['D', 'e', 'p', 'r', 'e', 'c', 'a', 't', 'e', 'd', 'V', '5']
  | .deprecatedV6 => ['D', 'e', 'p', 'r', 'e', 'c', 'a', 't', 'e', 'd', 'V', '6']
  | .v7 => ['V', '7']
  | .v8 => ['V', '8']
  | .v9 => ['V', '9']
  | .v10 => ['V', '1', '0']
  | .v11 => ['V', '1', '1']
  | .v12 => ['V', '1', '2']
  | .v13 => ['V', '1', '3']
  | .v14 => ['V', '1', '4']
  | .v15 => ['V', '1', '5']
  | .v16 => ['V', '1', '6']
  | .v17 => ['V', '1', '7']
  | .v18 => ['V', '1', '8']
  | .v19 => ['V', '1', '9']
  | .v20 => ['V', '2', '0']
  | .v21 => ['V', '2', '1']
  | .v22 => ['V', '2', '2']
  | .v23 => ['V', '2', '3']
  | .v24 => ['V', '2', '4']
  | .v25 => ['V', '2', '5']
  | .v26 => ['V', '2', '6']
  | .v27 => ['V', '2', '7']
  | .v28 => ['V', '2', '8']
  | .v29 => ['V', '2', '9']
  | .v30 => ['V', '3', '0']
  | .future => ['F', 'u', 't', 'u', 'r', 'e']

/-- The variant names of `OnCompletion` (application.rs lines 91-116). -/
def onCompletionName : OnCompletion → List Char
  | .noOp => ['N', 'o', 'O', 'p', 'O', 'C']
  | .optIn => ['O', 'p', 't', 'I', 'n', 'O', 'C']
  | .closeOut => ['C', 'l', 'o', 's', 'e', 'O', 'u', 't', 'O', 'C']
  | .clearState => ['C', 'l', 'e', 'a', 'r', 'S', 't', 'a', 't', 'e', 'O', 'C']
  | .updateApplication => ['U', 'p', 'd', 'a', 't', 'e', 'A', 'p', 'p', 'l', 'i', 'c', 'a', 't', 'i', 'o', 'n', 'O', 'C']
  | .deleteApplication => ['D', 'e', 'l', 'e', 't', 'e', 'A', 'p', 'p', 'l', 'i', 'c', 'a', 't', 'i', 'o', 'n', 'O', 'C']

/-- All variants of `OnCompletion`. -/
def onCompletions : List OnCompletion := [.noOp, .optIn, .closeOut, .clearState, .updateApplication, .deleteApplication]

/-- The `type` tag of each variant of `TxFields` (transaction.rs lines 95-110). -/
def tagName : Fields → List Char
  | .keyreg _ => ['k', 'e', 'y', 'r', 'e', 'g']
  | .payment _ => ['p', 'a', 'y']
  | .assetConfig _ => ['a', 'c', 'f', 'g']
  | .assetTransfer _ => ['a', 'x', 'f', 'e', 'r']
  | .assetFreeze _ => ['a', 'f', 'r', 'z']
  | .appCall _ => ['a', 'p', 'p', 'l']
  | .compactCert _ => ['c', 'e', 'r', 't']

/-- The variant name of `CompactCertType` (protocol/mod.rs lines 21-24). -/
def basicName : List Char := ['B', 'a', 's', 'i', 'c']

/-! ## Encoding -/

/-- `[u8; N]`, `Vec<u8>`, `Signature`, `CryptoHash`: an array of integers. -/
def bytesArr (b : Bytes) : MP := .arr (b.map fun x => .uint x.toNat)

/-- A string constant. -/
def strLit (cs : List Char) : MP := .str (asciiBytes cs)

/-- The content of a map: keys and values alternating. -/
def flat : List (Key × MP) → List MP
  | [] => []
  | (k, v) :: rest => .str k.bytes :: v :: flat rest

/-- A field with `skip_serializing_if`. -/
def skipIf (skip : Bool) (k : Key) (v : MP) : List (Key × MP) := if skip then [] else [(k, v)]

/-- The entries of a header (transaction.rs lines 46-81). -/
def headerPairs (h : Header) : List (Key × MP) :=
  skipIf (h.sender = zero32) .snd (.bin h.sender) ++ skipIf (h.fee = 0) .fee (.uint h.fee) ++
  skipIf (h.firstValid = 0) .fv (.uint h.firstValid) ++ skipIf (h.lastValid = 0) .lv (.uint h.lastValid) ++
  skipIf (h.note = []) .note (bytesArr h.note) ++ skipIf (h.genesisId = []) .gen (.str h.genesisId) ++
  skipIf (h.genesisHash = zero32) .gh (bytesArr h.genesisHash) ++ skipIf (h.group = zero32) .grp (bytesArr h.group) ++
  skipIf (h.lease = zero32) .lx (bytesArr h.lease) ++ skipIf (h.rekeyTo = zero32) .rekey (.bin h.rekeyTo)

/-- `Option<Address>`. -/
def optAddr : Option Bytes → MP
  | none => .nil
  | some a => .bin a

/-- `StateSchema` (teal.rs lines 109-113). -/
def schemaMP (s : Teal.Schema) : MP := .arr [.uint s.numUint, .uint s.numByteSlice]

/-- `AssetParams` (user_balance.rs lines 304-344). -/
def assetParamsMP (p : AssetParams) : MP :=
  .arr [.uint p.total, .uint p.decimals, .bool p.defaultFrozen, .str p.unitName, .str p.assetName, .str p.url,
    bytesArr p.metadataHash, .bin p.manager, .bin p.reserve, .bin p.freeze, .bin p.clawback]

/-- The entries of the type specific fields after the tag. -/
def bodyPairs : Fields → List (Key × MP)
  | .keyreg f => [(.votePk, .bin f.votePk), (.selectionPk, bytesArr f.selectionPk), (.voteFirst, .uint f.voteFirst),
      (.voteLast, .uint f.voteLast), (.voteKeyDilution, .uint f.voteKeyDilution),
      (.nonparticipation, .bool f.nonparticipation)]
  | .payment f => skipIf (f.receiver = zero32) .rcv (.bin f.receiver) ++ skipIf (f.amount = 0) .amt (.uint f.amount) ++
      skipIf (f.closeRemainderTo = none) .close (optAddr f.closeRemainderTo)
  | .assetConfig f => [(.configAsset, .uint f.configAsset), (.assetParams, assetParamsMP f.assetParams)]
  | .assetTransfer f => [(.transferAsset, .uint f.transferAsset), (.assetAmount, .uint f.assetAmount),
      (.assetSender, .bin f.assetSender), (.assetReceiver, .bin f.assetReceiver), (.assetCloseTo, .bin f.assetCloseTo)]
  | .assetFreeze f => [(.freezeAccount, .bin f.freezeAccount), (.freezeAsset, .uint f.freezeAsset),
      (.assetFrozen, .bool f.assetFrozen)]
  | .appCall f => [(.applicationId, .uint f.applicationId), (.onCompletion, strLit (onCompletionName f.onCompletion)),
      (.applicationArgs, .arr (f.applicationArgs.map bytesArr)), (.accounts, .arr (f.accounts.map .bin)),
      (.foreignApps, .arr (f.foreignApps.map .uint)), (.foreignAssets, .arr (f.foreignAssets.map .uint)),
      (.localStateSchema, schemaMP f.localStateSchema), (.globalStateSchema, schemaMP f.globalStateSchema),
      (.approvalProgram, bytesArr f.approvalProgram), (.clearStateProgram, bytesArr f.clearStateProgram),
      (.extraProgramPages, .uint f.extraProgramPages)]
  | .compactCert f => [(.certRound, .uint f.certRound), (.certType, strLit basicName)]

/-- The entries of a transaction: header, tag, type specific fields (transaction.rs lines 85-91). -/
def txPairs (t : Transaction) : List (Key × MP) :=
  headerPairs t.header ++ (.txType, strLit (tagName t.fields)) :: bodyPairs t.fields

/-- `Transaction`. -/
def txMP (t : Transaction) : MP := .map (flat (txPairs t))

/-- `Option<Signature>`. -/
def optSig : Option Bytes → MP
  | none => .nil
  | some s => bytesArr s

/-- `MultisigSubsig` (multisig.rs lines 21-25). -/
def subsigMP (s : Subsig) : MP := .arr [.bin s.key, optSig s.sig]

/-- `MultisigSignature` (multisig.rs lines 27-32). -/
def msigMP (m : Msig) : MP := .arr [.uint m.version.toNat, .uint m.threshold.toNat, .arr (m.subsigs.map subsigMP)]

/-- `LogicSig` (logicsig.rs lines 14-24). -/
def lsigMP (l : LogicSig) : MP := .arr [bytesArr l.logic, bytesArr l.sig, msigMP l.msig, .arr (l.args.map bytesArr)]

/-- The all-zero signature (`is_empty`, signed_tx.rs lines 15-17). -/
def zero64 : Bytes := List.replicate 64 0

/-- `SignedTx` (signed_tx.rs lines 23-34). -/
def stxMP (s : SignedTx) : MP :=
  .arr ((if s.sig = zero64 then [] else [bytesArr s.sig]) ++ (s.msig.map msigMP).toList ++ (s.lsig.map lsigMP).toList ++
    txMP s.tx :: (if s.authAddr = zero32 then [] else [.bin s.authAddr]))

/-- The encoding of `ApplyData` (transaction.rs lines 119-138) and the test `is_default`, parameters. -/
structure AdCodec (AD : Type) where
  mp : AD → MP
  isDefault : AD → Bool

/-- `SignedTxWithAD` (signed_tx.rs lines 47-53). -/
def stadMP {AD : Type} (A : AdCodec AD) (s : Stad AD) : MP :=
  .arr (stxMP s.tx :: (if A.isDefault s.ad then [] else [A.mp s.ad]))

/-- `SignedTxInBlock` (signed_tx.rs lines 36-45). -/
def stibMP {AD : Type} (A : AdCodec AD) (s : Stib AD) : MP :=
  .arr (stadMP A s.tx :: ((if s.hasGenesisId then [.bool true] else []) ++
    (if s.hasGenesisHash then [.bool true] else [])))

/-- `Payset`, transparent (payset.rs lines 11-14). -/
def paysetMP {AD : Type} (A : AdCodec AD) (p : List (Stib AD)) : MP := .arr (p.map (stibMP A))

/-- `RewardsState` (block.rs lines 114-138). -/
def rewardsMP (r : RewardsState) : MP :=
  .arr [.bin r.feeSink, .bin r.rewardsPool, .uint r.level, .uint r.rate, .uint r.residue, .uint r.recalculationRound]

/-- `UpgradeVote` (block.rs lines 141-151). -/
def upgradeVoteMP (v : UpgradeVote) : MP := .arr [strLit (versionName v.propose), .uint v.delay, .bool v.approve]

/-- `CompactCertState` (block.rs lines 173-187). -/
def certStateMP (c : CertState) : MP := .arr [bytesArr c.voters, .uint c.votersTotal, .uint c.nextRound]

/-- `HashMap<CompactCertType, CompactCertState>` (block.rs line 110). -/
def certsMP : Option CertState → MP
  | none => .map []
  | some c => .map [strLit basicName, certStateMP c]

/-- `BlockHeader` without the skipped upgrade state (block.rs lines 28-111). -/
def headerMP (h : HeaderBody) : MP :=
  .arr [.uint h.round, bytesArr h.branch, bytesArr h.seed, bytesArr h.txRoot, .uint h.timestamp, .str h.genesisId,
    bytesArr h.genesisHash, rewardsMP h.rewards, upgradeVoteMP h.upgradeVote, .uint h.txCounter, certsMP h.compactCerts]

/-- `TxGroup` (transaction.rs lines 141-149). -/
def txGroupMP (hashes : List Bytes) : MP := .arr [.arr (hashes.map bytesArr)]

/-- `SignedTxVec` (signed_tx_group.rs lines 28-30), a newtype. -/
def stxVecMP (l : List SignedTx) : MP := .arr (l.map stxMP)

/-- `OTSSubkeyBatchID` (ots.rs lines 64-68). -/
def batchIdMP (pk : Bytes) (batch : Nat) : MP := .arr [.bin pk, .uint batch]

/-- `OTSSubkeyOffsetID` (ots.rs lines 72-77). -/
def offsetIdMP (pk : Bytes) (batch off : Nat) : MP := .arr [.bin pk, .uint batch, .uint off]

/-- `HashableCredential` (credential.rs lines 49-56): `raw_out` is skipped. -/
def credentialMP (member : Bytes) (iter : Nat) : MP := .arr [.bin member, .uint iter]

/-- The encodings used by the block functions. -/
def blockEnv {AD : Type} (hash : Bytes → Bytes) (A : AdCodec AD) : Block.Env AD :=
  ⟨hash, fun h => enc (headerMP h), fun t => enc (txMP t), fun s => enc (stibMP A s), fun p => enc (paysetMP A p)⟩

/-- The encodings used by the one-time signatures. -/
def otsEnc : Ots.Enc := ⟨fun pk b => enc (batchIdMP pk b), fun pk b o => enc (offsetIdMP pk b o)⟩

/-- The id of a transaction group: `hash_obj` of a `TxGroup` (transaction.rs lines 150-154). -/
def groupId (hash : Bytes → Bytes) (hashes : List Bytes) : Bytes := hash (hashRep ⟨.txGroup, enc (txGroupMP hashes)⟩)

/-- `SignedTxVec::id` (signed_tx_group.rs lines 32-43). -/
def stxVecId (hash : Bytes → Bytes) (l : List SignedTx) : Bytes := hash (hashRep ⟨.txGroup, enc (stxVecMP l)⟩)

/-! ## Decoding -/

/-- What the libraries decide when reading: `PublicKey::from_bytes` and `Signature::from_bytes` succeed, and whether
`deserialize_tuple` of the MessagePack reader accepts a binary string (it depends on the version of rmp-serde; the
buffered reader used below `#[serde(flatten)]` never does). -/
structure Lib where
  validPk : Bytes → Bool
  validSig : Bytes → Bool
  binAsSeq : Bool

/-- An integer below a bound. -/
def decUint (lim : Nat) : MP → Option Nat
  | .uint n => if n < lim then some n else none
  | _ => none

/-- A boolean. -/
def decBool : MP → Option Bool
  | .bool b => some b
  | _ => none

/-- A byte written as an integer. -/
def decByte : MP → Option UInt8
  | .uint n => if n < 256 then some (UInt8.ofNat n) else none
  | _ => none

/-- A continuation byte of UTF-8. -/
def utf8Cont (b : UInt8) : Bool := 0x80 ≤ b ∧ b < 0xc0

/-- `str::from_utf8` succeeds: no overlong forms, no surrogates, nothing above U+10FFFF. -/
def utf8 : Bytes → Bool
  | [] => true
  | [a] => a < 0x80
  | a :: b :: s =>
    if a < 0x80 then utf8 (b :: s)
    else if 0xc2 ≤ a ∧ a < 0xe0 then utf8Cont b && utf8 s
    else match s with
      | [] => false
      | c :: s =>
        if 0xe0 ≤ a ∧ a < 0xf0 then
          utf8Cont b && utf8Cont c && decide (a = 0xe0 → 0xa0 ≤ b) && decide (a = 0xed → b < 0xa0) && utf8 s
        else match s with
          | [] => false
          | d :: s =>
            decide (0xf0 ≤ a ∧ a < 0xf5) && utf8Cont b && utf8Cont c && utf8Cont d && decide (a = 0xf0 → 0x90 ≤ b) &&
              decide (a = 0xf4 → b < 0x90) && utf8 s

/-- `String`. -/
def decStr : MP → Option Bytes
  | .str s => if utf8 s then some s else none
  | .bin s => if utf8 s then some s else none
  | _ => none

/-- `Vec<T>`. -/
def decVec {α : Type} (f : MP → Option α) : MP → Option (List α)
  | .arr l => l.mapM f
  | _ => none

/-- `Vec<u8>`. -/
def decBytes : MP → Option Bytes := decVec decByte

/-- `[u8; N]`. -/
def decArr (n : Nat) (v : MP) : Option Bytes := do
  let b ← decBytes v
  if b.length = n then some b else none

/-- `Option<T>`. -/
def decOpt {α : Type} (f : MP → Option α) : MP → Option (Option α)
  | .nil => some none
  | v => (f v).map some

/-- `ed25519_dalek::PublicKey`: bytes, 32 of them, that name a point. -/
def decPk (L : Lib) (v : MP) : Option Bytes := do
  let b ← (match v with
    | .bin s => some s
    | .str s => some s
    | v => decBytes v)
  if b.length = 32 ∧ L.validPk b then some b else none

/-- `ed25519::Signature`: a 64-tuple. -/
def decSig (L : Lib) (v : MP) : Option Bytes := do
  let b ← decArr 64 v
  if L.validSig b then some b else none

/-- `Address` (address.rs line 26, derived): a tuple of 32 integers, whereas it is written as a binary string. Read from
buffered content. -/
def decAddr : MP → Option Bytes := decArr 32

/-- `Address` read directly from the MessagePack reader. -/
def decAddrDirect (L : Lib) : MP → Option Bytes
  | .bin s => if L.binAsSeq ∧ s.length = 32 then some s else none
  | v => decArr 32 v

/-- The text of a map key. -/
def keyBytes : MP → Option Bytes
  | .str s => some s
  | .bin s => some s
  | _ => none

/-- The key stands for a field: the name of the field or, in a struct without flattened fields, its position (the field
visitor of `serde_derive` has `visit_u64`, `visit_str` and `visit_bytes`). -/
def isKey (pos : Option Nat) (name : Bytes) : MP → Bool
  | .uint n => pos = some n
  | key => keyBytes key = some name

/-- A key that the field visitor accepts: a text or a position. A position beyond the last field and an unknown name are
ignored, together with the value. -/
def keyOk : MP → Bool
  | .uint _ => true
  | key => (keyBytes key).isSome

/-- The field visitor refuses keys of other types. -/
def checkKeys : List MP → Option Unit
  | key :: _ :: rest => if keyOk key then checkKeys rest else none
  | _ => some ()

/-- The values stored under a key. -/
def vals (pos : Option Nat) (k : Key) : List MP → List MP
  | key :: v :: rest => if isKey pos k.bytes key then v :: vals pos k rest else vals pos k rest
  | _ => []

/-- A required field: present once. -/
def req {α : Type} (pos : Option Nat) (k : Key) (f : MP → Option α) (kvs : List MP) : Option α :=
  match vals pos k kvs with
  | [v] => f v
  | _ => none

/-- A field with `#[serde(default)]`: present at most once. -/
def opt {α : Type} (pos : Option Nat) (k : Key) (f : MP → Option α) (d : α) (kvs : List MP) : Option α :=
  match vals pos k kvs with
  | [] => some d
  | [v] => f v
  | _ => none

/-- The header fields of a transaction; `addr` reads an address. -/
def decHeader (addr : MP → Option Bytes) (kvs : List MP) : Option Header := do
  let sender ← opt none .snd addr zero32 kvs
  let fee ← opt none .fee (decUint u64Lim) 0 kvs
  let firstValid ← opt none .fv (decUint u64Lim) 0 kvs
  let lastValid ← opt none .lv (decUint u64Lim) 0 kvs
  let note ← opt none .note decBytes [] kvs
  let genesisId ← opt none .gen decStr [] kvs
  let genesisHash ← opt none .gh (decArr 32) zero32 kvs
  let group ← opt none .grp (decArr 32) zero32 kvs
  let lease ← opt none .lx (decArr 32) zero32 kvs
  let rekeyTo ← opt none .rekey addr zero32 kvs
  some ⟨sender, fee, firstValid, lastValid, note, genesisId, genesisHash, group, lease, rekeyTo⟩

/-- `StateSchema`. -/
def decSchema : MP → Option Teal.Schema
  | .arr [a, b] => do
    let x ← decUint u64Lim a
    let y ← decUint u64Lim b
    some ⟨x, y⟩
  | .map kvs => do
    let _ ← checkKeys kvs
    let x ← req (some 0) .numUint (decUint u64Lim) kvs
    let y ← req (some 1) .numByteSlice (decUint u64Lim) kvs
    some ⟨x, y⟩
  | _ => none

/-- `AssetParams`. -/
def decAssetParams (addr : MP → Option Bytes) : MP → Option AssetParams
  | .arr [a, b, c, d, e, f, g, h, i, j, k] => do
    let total ← decUint u64Lim a
    let decimals ← decUint u32Lim b
    let defaultFrozen ← decBool c
    let unitName ← decStr d
    let assetName ← decStr e
    let url ← decStr f
    let metadataHash ← decArr 32 g
    let manager ← addr h
    let reserve ← addr i
    let freeze ← addr j
    let clawback ← addr k
    some ⟨total, decimals, defaultFrozen, unitName, assetName, url, metadataHash, manager, reserve, freeze, clawback⟩
  | .map kvs => do
    let _ ← checkKeys kvs
    let total ← req (some 0) .total (decUint u64Lim) kvs
    let decimals ← req (some 1) .decimals (decUint u32Lim) kvs
    let defaultFrozen ← req (some 2) .defaultFrozen decBool kvs
    let unitName ← req (some 3) .unitName decStr kvs
    let assetName ← req (some 4) .assetName decStr kvs
    let url ← req (some 5) .url decStr kvs
    let metadataHash ← req (some 6) .metadataHash (decArr 32) kvs
    let manager ← req (some 7) .manager addr kvs
    let reserve ← req (some 8) .reserve addr kvs
    let freeze ← req (some 9) .freeze addr kvs
    let clawback ← req (some 10) .clawback addr kvs
    some ⟨total, decimals, defaultFrozen, unitName, assetName, url, metadataHash, manager, reserve, freeze, clawback⟩
  | _ => none

/-- `OnCompletion`. -/
def decOnCompletion : MP → Option OnCompletion
  | .str s => onCompletions.find? fun o => asciiBytes (onCompletionName o) = s
  | _ => none

/-- `CompactCertType`. -/
def decCertType : MP → Option Unit
  | .str s => if s = asciiBytes basicName then some () else none
  | _ => none

/-- `KeyregFields`. -/
def decKeyreg (L : Lib) (kvs : List MP) : Option Keyreg := do
  let votePk ← req (some 0) .votePk (decPk L) kvs
  let selectionPk ← req (some 1) .selectionPk (decArr 32) kvs
  let voteFirst ← req (some 2) .voteFirst (decUint u64Lim) kvs
  let voteLast ← req (some 3) .voteLast (decUint u64Lim) kvs
  let voteKeyDilution ← req (some 4) .voteKeyDilution (decUint u64Lim) kvs
  let nonparticipation ← req (some 5) .nonparticipation decBool kvs
  some ⟨votePk, selectionPk, voteFirst, voteLast, voteKeyDilution, nonparticipation⟩

/-- `PaymentFields`. -/
def decPayment (addr : MP → Option Bytes) (kvs : List MP) : Option Payment := do
  let receiver ← opt (some 0) .rcv addr zero32 kvs
  let amount ← opt (some 1) .amt (decUint u64Lim) 0 kvs
  let close ← opt (some 2) .close (decOpt addr) none kvs
  some ⟨receiver, amount, close⟩

/-- `AssetConfigFields`. -/
def decAssetConfig (addr : MP → Option Bytes) (kvs : List MP) : Option AssetConfig := do
  let configAsset ← req (some 0) .configAsset (decUint u64Lim) kvs
  let assetParams ← req (some 1) .assetParams (decAssetParams addr) kvs
  some ⟨configAsset, assetParams⟩

/-- `AssetTransferFields`. -/
def decAssetTransfer (addr : MP → Option Bytes) (kvs : List MP) : Option AssetTransfer := do
  let transferAsset ← req (some 0) .transferAsset (decUint u64Lim) kvs
  let assetAmount ← req (some 1) .assetAmount (decUint u64Lim) kvs
  let assetSender ← req (some 2) .assetSender addr kvs
  let assetReceiver ← req (some 3) .assetReceiver addr kvs
  let assetCloseTo ← req (some 4) .assetCloseTo addr kvs
  some ⟨transferAsset, assetAmount, assetSender, assetReceiver, assetCloseTo⟩

/-- `AssetFreezeFields`. -/
def decAssetFreeze (addr : MP → Option Bytes) (kvs : List MP) : Option AssetFreeze := do
  let freezeAccount ← req (some 0) .freezeAccount addr kvs
  let freezeAsset ← req (some 1) .freezeAsset (decUint u64Lim) kvs
  let assetFrozen ← req (some 2) .assetFrozen decBool kvs
  some ⟨freezeAccount, freezeAsset, assetFrozen⟩

/-- `AppCallFields`. -/
def decAppCall (addr : MP → Option Bytes) (kvs : List MP) : Option AppCall := do
  let applicationId ← req (some 0) .applicationId (decUint u64Lim) kvs
  let onCompletion ← req (some 1) .onCompletion decOnCompletion kvs
  let applicationArgs ← req (some 2) .applicationArgs (decVec decBytes) kvs
  let accounts ← req (some 3) .accounts (decVec addr) kvs
  let foreignApps ← req (some 4) .foreignApps (decVec (decUint u64Lim)) kvs
  let foreignAssets ← req (some 5) .foreignAssets (decVec (decUint u64Lim)) kvs
  let localStateSchema ← req (some 6) .localStateSchema decSchema kvs
  let globalStateSchema ← req (some 7) .globalStateSchema decSchema kvs
  let approvalProgram ← req (some 8) .approvalProgram decBytes kvs
  let clearStateProgram ← req (some 9) .clearStateProgram decBytes kvs
  let extraProgramPages ← req (some 10) .extraProgramPages (decUint u32Lim) kvs
  some ⟨applicationId, onCompletion, applicationArgs, accounts, foreignApps, foreignAssets, localStateSchema,
    globalStateSchema, approvalProgram, clearStateProgram, extraProgramPages⟩

/-- `CompactCertFields`. -/
def decCompactCert (kvs : List MP) : Option CompactCert := do
  let certRound ← req (some 0) .certRound (decUint u64Lim) kvs
  let _ ← req (some 1) .certType decCertType kvs
  some ⟨certRound⟩

/-- The internally tagged `TxFields` (transaction.rs lines 93-110). -/
def decFields (L : Lib) (addr : MP → Option Bytes) (kvs : List MP) : Option Fields := do
  let tag ← req none .txType decStr kvs
  if tag = asciiBytes ['k', 'e', 'y', 'r', 'e', 'g'] then (decKeyreg L kvs).map .keyreg
  else if tag = asciiBytes ['p', 'a', 'y'] then (decPayment addr kvs).map .payment
  else if tag = asciiBytes ['a', 'c', 'f', 'g'] then (decAssetConfig addr kvs).map .assetConfig
  else if tag = asciiBytes ['a', 'x', 'f', 'e', 'r'] then (decAssetTransfer addr kvs).map .assetTransfer
  else if tag = asciiBytes ['a', 'f', 'r', 'z'] then (decAssetFreeze addr kvs).map .assetFreeze
  else if tag = asciiBytes ['a', 'p', 'p', 'l'] then (decAppCall addr kvs).map .appCall
  else if tag = asciiBytes ['c', 'e', 'r', 't'] then (decCompactCert kvs).map .compactCert
  else none

/-- A transaction, given the reader of addresses. The header and the type are found by name only, since they are flattened
(transaction.rs lines 86-90); what is left is read as a struct of the type, which refuses keys that are neither texts nor
positions. -/
def decTxWith (L : Lib) (addr : MP → Option Bytes) : MP → Option Transaction
  | .map kvs => do
    let _ ← checkKeys kvs
    let header ← decHeader addr kvs
    let fields ← decFields L addr kvs
    some ⟨header, fields⟩
  | _ => none

/-- `Transaction` as the derived implementation reads it. -/
def decTx (L : Lib) : MP → Option Transaction := decTxWith L decAddr

/-- `MultisigSubsig`; an `Option` that is missing from a map is `None`. -/
def decSubsig (L : Lib) : MP → Option Subsig
  | .arr [a, b] => do
    let key ← decPk L a
    let sig ← decOpt (decSig L) b
    some ⟨key, sig⟩
  | .map kvs => do
    let _ ← checkKeys kvs
    let key ← req (some 0) .key (decPk L) kvs
    let sig ← opt (some 1) .sig (decOpt (decSig L)) none kvs
    some ⟨key, sig⟩
  | _ => none

/-- `MultisigSignature`, from an array or from a map. -/
def decMsig (L : Lib) : MP → Option Msig
  | .arr [a, b, c] => do
    let version ← decByte a
    let threshold ← decByte b
    let subsigs ← decVec (decSubsig L) c
    some ⟨version, threshold, subsigs⟩
  | .map kvs => do
    let _ ← checkKeys kvs
    let version ← req (some 0) .version decByte kvs
    let threshold ← req (some 1) .threshold decByte kvs
    let subsigs ← req (some 2) .subsigs (decVec (decSubsig L)) kvs
    some ⟨version, threshold, subsigs⟩
  | _ => none

/-- `LogicSig`, from an array or from a map. -/
def decLsig (L : Lib) : MP → Option LogicSig
  | .arr [a, b, c, d] => do
    let logic ← decBytes a
    let sig ← decSig L b
    let msig ← decMsig L c
    let args ← decVec decBytes d
    some ⟨logic, sig, msig, args⟩
  | .map kvs => do
    let _ ← checkKeys kvs
    let logic ← req (some 0) .logic decBytes kvs
    let sig ← req (some 1) .sig (decSig L) kvs
    let msig ← req (some 2) .msig (decMsig L) kvs
    let args ← req (some 3) .args (decVec decBytes) kvs
    some ⟨logic, sig, msig, args⟩
  | _ => none

/-- The next element of an array: a required field. -/
def next {α : Type} (f : MP → Option α) : List MP → Option (α × List MP)
  | [] => none
  | v :: l => (f v).map fun a => (a, l)

/-- The next element of an array: a field with `#[serde(default)]`. -/
def nextOr {α : Type} (f : MP → Option α) (d : α) : List MP → Option (α × List MP)
  | [] => some (d, [])
  | v :: l => (f v).map fun a => (a, l)

/-- `SignedTx` (signed_tx.rs lines 23-34); left-over elements are an error. -/
def decStx (L : Lib) : MP → Option SignedTx
  | .arr l => do
    let (sig, l) ← next (decSig L) l
    let (msig, l) ← nextOr (decOpt (decMsig L)) none l
    let (lsig, l) ← nextOr (decOpt (decLsig L)) none l
    let (tx, l) ← next (decTx L) l
    let (auth, l) ← nextOr (decAddrDirect L) zero32 l
    if l.isEmpty then some ⟨sig, msig, lsig, tx, auth⟩ else none
  | .map kvs => do
    let _ ← checkKeys kvs
    let sig ← req (some 0) .sig (decSig L) kvs
    let msig ← opt (some 1) .msig (decOpt (decMsig L)) none kvs
    let lsig ← opt (some 2) .lsig (decOpt (decLsig L)) none kvs
    let tx ← req (some 3) .tx (decTx L) kvs
    let auth ← opt (some 4) .authAddr (decAddrDirect L) zero32 kvs
    some ⟨sig, msig, lsig, tx, auth⟩
  | _ => none

/-- `protocol::decode::<Transaction>`: the bytes after the value are ignored. -/
def decodeTx (L : Lib) (bs : Bytes) : Option Transaction := (decode bs).bind fun p => decTx L p.1

/-- `protocol::decode::<SignedTx>`. -/
def decodeStx (L : Lib) (bs : Bytes) : Option SignedTx := (decode bs).bind fun p => decStx L p.1

end Verif.Codec
