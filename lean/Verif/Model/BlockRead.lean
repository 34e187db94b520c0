import Verif.Model.Genesis
import Verif.Model.ApplyData
/-!
# Reading block headers and paysets: the derived `Deserialize` of `src/data/bookkeeping/block.rs` and
`src/data/transactions/{signed_tx,payset,transaction,teal}.rs`

`protocol::decode` (codec.rs lines 10-12) of a `BlockHeader` and of a `Payset`. A struct is read from an array or from a
map; a field with `#[serde(skip)]` is filled with its default. The nesting of inner transactions is bounded by the depth
of the value that is read, so that the readers are total.
-/

namespace Verif.Codec
open Verif Verif.Msgpack Verif.Tx Verif.Block Verif.HashId Verif.Consensus Verif.Genesis

/-! ## Headers -/

/-- The names of the fields of `RewardsState` (block.rs lines 115-138). -/
def rewardsNames : List (List Char) :=
  [['f', 'e', 'e', '_', 's', 'i', 'n', 'k'], ['r', 'e', 'w', 'a', 'r', 'd', 's', '_', 'p', 'o', 'o', 'l'],
    ['r', 'e', 'w', 'a', 'r', 'd', 's', '_', 'l', 'e', 'v', 'e', 'l'],
    ['r', 'e', 'w', 'a', 'r', 'd', 's', '_', 'r', 'a', 't', 'e'],
    ['r', 'e', 'w', 'a', 'r', 'd', 's', '_', 'r', 'e', 's', 'i', 'd', 'u', 'e'],
    ['r', 'e', 'w', 'a', 'r', 'd', 's', '_', 'r', 'e', 'c', 'a', 'l', 'c', 'u', 'l', 'a', 't', 'i', 'o', 'n', '_', 'r', 'o', 'u', 'n', 'd']]

/-- `RewardsState` (block.rs lines 115-138). -/
def decRewards (L : Lib) (v : MP) : Option RewardsState := do
  match ← decStruct rewardsNames v with
  | [a, b, c, d, e, f] =>
    let feeSink ← decAddrDirect L a
    let rewardsPool ← decAddrDirect L b
    let level ← decUint u64Lim c
    let rate ← decUint u64Lim d
    let residue ← decUint u64Lim e
    let recalculationRound ← decUint u64Lim f
    some ⟨feeSink, rewardsPool, level, rate, residue, recalculationRound⟩
  | _ => none

/-- `UpgradeVote` (block.rs lines 141-151). -/
def decUpgradeVote (v : MP) : Option UpgradeVote := do
  match ← decStruct [['u', 'p', 'g', 'r', 'a', 'd', 'e', '_', 'p', 'r', 'o', 'p', 'o', 's', 'e'],
    ['u', 'p', 'g', 'r', 'a', 'd', 'e', '_', 'd', 'e', 'l', 'a', 'y'],
    ['u', 'p', 'g', 'r', 'a', 'd', 'e', '_', 'a', 'p', 'p', 'r', 'o', 'v', 'e']] v with
  | [a, b, c] =>
    let propose ← decVariant Version.all versionName a
    let delay ← decUint u64Lim b
    let approve ← decBool c
    some ⟨propose, delay, approve⟩
  | _ => none

/-- `CompactCertState` (block.rs lines 173-187). -/
def decCertState (v : MP) : Option CertState := do
  match ← decStruct [['c', 'o', 'm', 'p', 'a', 'c', 't', 'c', 'e', 'r', 't', '_', 'v', 'o', 't', 'e', 'r', 's'],
    ['c', 'o', 'm', 'p', 'a', 'c', 't', 'c', 'e', 'r', 't', '_', 'v', 'o', 't', 'e', 'r', 's', '_', 't', 'o', 't', 'a', 'l'], ['c', 'o', 'm', 'p', 'a', 'c', 't', 'c', 'e', 'r', 't', '_', 'n', 'e', 'x', 't', '_', 'r', 'o', 'u', 'n', 'd']] v with
  | [a, b, c] =>
    let voters ← decArr 32 a
    let votersTotal ← decUint u64Lim b
    let nextRound ← decUint u64Lim c
    some ⟨voters, votersTotal, nextRound⟩
  | _ => none

/-- `HashMap<CompactCertType, CompactCertState>` (block.rs line 110): the type has one variant. -/
def decCerts (v : MP) : Option (Option CertState) := do
  let l ← decMap (decVariant [()] fun _ => basicName) decCertState v
  some (l.head?.map Prod.snd)

/-- The names of the fields of `BlockHeader` that are not skipped (block.rs lines 29-111). -/
def headerNames : List (List Char) :=
  [['r', 'o', 'u', 'n', 'd'], ['b', 'r', 'a', 'n', 'c', 'h'], ['s', 'e', 'e', 'd'],
    ['t', 'x', '_', 'r', 'o', 'o', 't'], ['t', 'i', 'm', 'e', 's', 't', 'a', 'm', 'p'],
    ['g', 'e', 'n', 'e', 's', 'i', 's', '_', 'i', 'd'],
    ['g', 'e', 'n', 'e', 's', 'i', 's', '_', 'h', 'a', 's', 'h'],
    ['r', 'e', 'w', 'a', 'r', 'd', 's', '_', 's', 't', 'a', 't', 'e'],
    ['u', 'p', 'g', 'r', 'a', 'd', 'e', '_', 'v', 'o', 't', 'e'], ['t', 'x', '_', 'c', 'o', 'u', 'n', 't', 'e', 'r'],
    ['c', 'o', 'm', 'p', 'a', 'c', 't', '_', 'c', 'e', 'r', 't', 's']]

/-- `BlockHeader` (block.rs lines 28-111): `upgrade_state` is skipped and becomes `UpgradeState::default()`. -/
def decBlockHeader (L : Lib) (v : MP) : Option BlockHeader := do
  match ← decStruct headerNames v with
  | [a1, a2, a3, a4, a5, a6, a7, a8, a9, a10, a11] =>
    let round ← decUint u64Lim a1
    let branch ← decArr 32 a2
    let seed ← decArr 32 a3
    let txRoot ← decArr 32 a4
    let timestamp ← decUint u64Lim a5
    let genesisId ← decStr a6
    let genesisHash ← decArr 32 a7
    let rewards ← decRewards L a8
    let upgradeVote ← decUpgradeVote a9
    let txCounter ← decUint u64Lim a10
    let compactCerts ← decCerts a11
    some ⟨⟨round, branch, seed, txRoot, timestamp, genesisId, genesisHash, rewards, upgradeVote, txCounter, compactCerts⟩,
      .default⟩
  | _ => none

/-- `protocol::encode` of a `BlockHeader`. -/
def encodeHeader (h : BlockHeader) : Bytes := enc (headerMP h.body)

/-- `protocol::decode::<BlockHeader>`: the bytes after the value are ignored. -/
def decodeHeader (L : Lib) (bs : Bytes) : Option BlockHeader := (decode bs).bind fun p => decBlockHeader L p.1

/-! ## Paysets -/

mutual
/-- The depth of a value. -/
def depthMP : MP → Nat
  | .arr l => depthList l + 1
  | .map l => depthList l + 1
  | _ => 0
/-- The depth of the deepest value. -/
def depthList : List MP → Nat
  | [] => 0
  | a :: l => max (depthMP a) (depthList l)
end

/-- A required field of a struct that is read from a map. -/
def reqName {α : Type} (pos : Nat) (n : List Char) (f : MP → Option α) (kvs : List MP) : Option α :=
  match named pos n kvs with
  | [v] => f v
  | _ => none

/-- A field with `#[serde(default)]` of a struct that is read from a map. -/
def optName {α : Type} (pos : Nat) (n : List Char) (f : MP → Option α) (d : α) (kvs : List MP) : Option α :=
  match named pos n kvs with
  | [] => some d
  | [v] => f v
  | _ => none

/-- `ValueDelta` (basics/teal.rs lines 27-32). -/
def decValueDelta (v : MP) : Option Teal.ValueDelta := do
  match ← decStruct [['a', 'c', 't', 'i', 'o', 'n'], ['b', 'y', 't', 'e', 's'], ['u', 'i', 'n', 't']] v with
  | [a, b, c] =>
    let action ← decVariant [.setBytes, .setUint, .delete] actionName a
    let bytes ← decBytes b
    let uint ← decUint u64Lim c
    some ⟨action, bytes, uint⟩
  | _ => none

/-- `StateDelta` (basics/teal.rs lines 46-48). -/
def decStateDelta : MP → Option (List (Bytes × Teal.ValueDelta)) := decMap decStr decValueDelta

/-- `Vec<SignedTxWithAD>` as a list. -/
def InnerTxs.ofList : List (Stad ApplyData) → InnerTxs
  | [] => .nil
  | s :: l => .cons s.tx s.ad (ofList l)

/-- `SignedTxWithAD` (signed_tx.rs lines 47-53), given the reader of its `ApplyData`. -/
def decStadWith (L : Lib) (ad : MP → Option ApplyData) : MP → Option (Stad ApplyData)
  | .arr l => do
    let (tx, l) ← next (decStx L) l
    let (a, l) ← nextOr ad .default l
    if l.isEmpty then some ⟨tx, a⟩ else none
  | .map kvs => do
    let _ ← checkKeys kvs
    let tx ← reqName 0 ['t', 'x'] (decStx L) kvs
    let a ← optName 1 ['a', 'd'] ad .default kvs
    some ⟨tx, a⟩
  | _ => none

/-- The names of the fields of `ApplyData` (transaction.rs lines 119-138). -/
def adNames : List (List Char) :=
  [['c', 'l', 'o', 's', 'i', 'n', 'g', '_', 'a', 'm', 'o', 'u', 'n', 't'],
    ['a', 's', 's', 'e', 't', '_', 'c', 'l', 'o', 's', 'i', 'n', 'g', '_', 'a', 'm', 'o', 'u', 'n', 't'],
    ['s', 'e', 'n', 'd', 'e', 'r', '_', 'r', 'e', 'w', 'a', 'r', 'd', 's'],
    ['r', 'e', 'c', 'e', 'i', 'v', 'e', 'r', '_', 'r', 'e', 'w', 'a', 'r', 'd', 's'],
    ['c', 'l', 'o', 's', 'e', '_', 'r', 'e', 'w', 'a', 'r', 'd', 's'],
    ['e', 'v', 'a', 'l', '_', 'd', 'e', 'l', 't', 'a'], ['c', 'o', 'n', 'f', 'i', 'g', '_', 'a', 's', 's', 'e', 't'],
    ['a', 'p', 'p', 'l', 'i', 'c', 'a', 't', 'i', 'o', 'n', '_', 'i', 'd']]

/-- The names of the fields of `EvalDelta` (transactions/teal.rs lines 13-27). -/
def evalDeltaNames : List (List Char) :=
  [['g', 'l', 'o', 'b', 'a', 'l', '_', 'd', 'e', 'l', 't', 'a'],
    ['l', 'o', 'c', 'a', 'l', '_', 'd', 'e', 'l', 't', 'a', 's'], ['l', 'o', 'g', 's'],
    ['i', 'n', 'n', 'e', 'r', '_', 't', 'x', 's']]

/-- `EvalDelta`, given the reader of an inner transaction. -/
def decEvalDelta (stad : MP → Option (Stad ApplyData)) (v : MP) :
    Option (List (Bytes × Teal.ValueDelta) × List (Nat × List (Bytes × Teal.ValueDelta)) × List Bytes × InnerTxs) := do
  match ← decStruct evalDeltaNames v with
  | [a, b, c, d] =>
    let globalDelta ← decStateDelta a
    let localDeltas ← decMap (decUint u64Lim) decStateDelta b
    let logs ← decVec decStr c
    let inner ← decVec stad d
    some (globalDelta, localDeltas, logs, .ofList inner)
  | _ => none

/-- `ApplyData` with at most `n - 1` levels of inner transactions. -/
def decAdN (L : Lib) : Nat → MP → Option ApplyData
  | 0, _ => none
  | n + 1, v => do
    match ← decStruct adNames v with
    | [a1, a2, a3, a4, a5, a6, a7, a8] =>
      let closingAmount ← decUint u64Lim a1
      let assetClosingAmount ← decUint u64Lim a2
      let senderRewards ← decUint u64Lim a3
      let receiverRewards ← decUint u64Lim a4
      let closeRewards ← decUint u64Lim a5
      let (globalDelta, localDeltas, logs, inner) ← decEvalDelta (decStadWith L (decAdN L n)) a6
      let configAsset ← decUint u64Lim a7
      let applicationId ← decUint u64Lim a8
      some (.mk ⟨closingAmount, assetClosingAmount, senderRewards, receiverRewards, closeRewards, globalDelta, localDeltas,
        logs, configAsset, applicationId⟩ inner)
    | _ => none

/-- `ApplyData` (transaction.rs lines 119-138). -/
def decAd (L : Lib) (v : MP) : Option ApplyData := decAdN L (depthMP v) v

/-- `SignedTxInBlock` (signed_tx.rs lines 36-45). -/
def decStib (L : Lib) : MP → Option (Stib ApplyData)
  | .arr l => do
    let (tx, l) ← next (decStadWith L (decAd L)) l
    let (hasGenesisId, l) ← nextOr decBool false l
    let (hasGenesisHash, l) ← nextOr decBool false l
    if l.isEmpty then some ⟨tx, hasGenesisId, hasGenesisHash⟩ else none
  | .map kvs => do
    let _ ← checkKeys kvs
    let tx ← reqName 0 ['t', 'x'] (decStadWith L (decAd L)) kvs
    let hasGenesisId ← optName 1 ['h', 'a', 's', '_', 'g', 'e', 'n', 'e', 's', 'i', 's', '_', 'i', 'd'] decBool false kvs
    let hasGenesisHash ← optName 2 ['h', 'a', 's', '_', 'g', 'e', 'n', 'e', 's', 'i', 's', '_', 'h', 'a', 's', 'h'] decBool false kvs
    some ⟨tx, hasGenesisId, hasGenesisHash⟩
  | _ => none

/-- `Payset` (payset.rs lines 11-14). -/
def decPayset (L : Lib) : MP → Option (List (Stib ApplyData)) := decVec (decStib L)

/-- `protocol::encode` of a `Payset`. -/
def encodePayset (p : List (Stib ApplyData)) : Bytes := enc (paysetMP adCodec p)

/-- `protocol::decode::<Payset>`. -/
def decodePayset (L : Lib) (bs : Bytes) : Option (List (Stib ApplyData)) := (decode bs).bind fun p => decPayset L p.1

/-- `wrap_signed_txs_with_ad` (signed_tx.rs lines 93-101). -/
def wrapSignedTxs (l : List SignedTx) : List (Stad ApplyData) := l.map fun tx => ⟨tx, .default⟩

end Verif.Codec
