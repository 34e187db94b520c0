import Verif.Model.Upgrade
import Verif.Model.Rewards
import Verif.Model.Transaction
import Verif.Model.MerkleArray
import Verif.Model.Balance
/-!
# Model of `src/data/bookkeeping/{block,genesis,tx_merkle}.rs` and `src/data/transactions/payset.rs`

`ApplyData` is a type parameter: the functions only move it around. The hash function and `protocol::encode` on the
hashed types are the fields of `Env`; the header encoding takes a `HeaderBody`, because the upgrade state is
`#[serde(skip)]`.
-/

namespace Verif.Block
open Verif Verif.Consensus Verif.HashId Verif.Tx

/-- `CompactCertState` (block.rs lines 173-186). -/
structure CertState where
  voters : Bytes
  votersTotal : Nat
  nextRound : Nat
  deriving Repr, DecidableEq

/-- The serialised fields of `BlockHeader` (block.rs lines 28-111). `CompactCertType` has one variant, so the map of
compact certificate states has at most one entry. -/
structure HeaderBody where
  round : Nat
  branch : Bytes
  seed : Bytes
  txRoot : Bytes
  timestamp : Nat
  genesisId : Bytes
  genesisHash : Bytes
  rewards : RewardsState
  upgradeVote : UpgradeVote
  txCounter : Nat
  compactCerts : Option CertState
  deriving Repr, DecidableEq

/-- `BlockHeader`: the serialised fields and the upgrade state, which is skipped by the encoder (line 100). -/
structure BlockHeader where
  body : HeaderBody
  upgradeState : UpgradeState
  deriving Repr, DecidableEq

/-- `SignedTxWithAD` (signed_tx.rs lines 48-53). -/
structure Stad (AD : Type) where
  tx : SignedTx
  ad : AD
  deriving Repr, DecidableEq

/-- `SignedTxInBlock` (signed_tx.rs lines 37-45). -/
structure Stib (AD : Type) where
  tx : Stad AD
  hasGenesisId : Bool
  hasGenesisHash : Bool
  deriving Repr, DecidableEq

/-- `Block` (block.rs lines 20-24) with its `Payset`. -/
structure Block (AD : Type) where
  header : BlockHeader
  payset : List (Stib AD)
  deriving Repr, DecidableEq

/-- The hash function and the encodings of the hashed types. -/
structure Env (AD : Type) where
  hash : Bytes → Bytes
  encHeader : HeaderBody → Bytes
  encTx : Transaction → Bytes
  encStib : Stib AD → Bytes
  encPayset : List (Stib AD) → Bytes

/-- `hash_obj` of a header (block.rs lines 770-775), `Block::digest` (lines 190-193). -/
def headerHash {AD : Type} (env : Env AD) (h : BlockHeader) : Bytes :=
  env.hash (hashRep ⟨.blockHeader, env.encHeader h.body⟩)

/-- `CryptoHash::default()`. -/
def zeroHash : Bytes := List.replicate 32 0

/-- `BlockHeader::decode_signed_tx` (block.rs lines 453-486). -/
def decodeSignedTx {AD : Type} (tbl : Protocols) (h : BlockHeader) (stb : Stib AD) : Res InvalidBlock (Stad AD) := do
  let proto ← Res.ofOption (lookup tbl h.upgradeState.current)
  if ¬ proto.supportSignedTxInBlock then .ok stb.tx
  else if stb.tx.tx.tx.header.genesisId ≠ [] then .err .nonEmptyGenesisId
  else if stb.tx.tx.tx.header.genesisHash ≠ zeroHash then .err .nonEmptyGenesisHash
  else if proto.requireGenesisHash ∧ stb.hasGenesisHash then .err .redundantHasGenesisHash
  else .ok { stb.tx with tx := { stb.tx.tx with tx := { stb.tx.tx.tx with header :=
    { stb.tx.tx.tx.header with
        genesisId := if stb.hasGenesisId then h.body.genesisId else stb.tx.tx.tx.header.genesisId,
        genesisHash := if proto.requireGenesisHash ∨ stb.hasGenesisHash then h.body.genesisHash
          else stb.tx.tx.tx.header.genesisHash } } } }

/-- The genesis id part of `encode_signed_tx` (block.rs lines 509-519): new value and flag. -/
def stripGenesisId (h : BlockHeader) (id : Bytes) : Res InvalidBlock (Bytes × Bool) :=
  if id ≠ [] then
    if id = h.body.genesisId then .ok ([], true) else .err (.genesisIdMismatch h.body.genesisId id)
  else .ok (id, false)

/-- The genesis hash part of `encode_signed_tx` (block.rs lines 521-535): new value and flag. -/
def stripGenesisHash (h : BlockHeader) (proto : Params) (gh : Bytes) : Res InvalidBlock (Bytes × Bool) :=
  if gh ≠ zeroHash then
    if gh = h.body.genesisHash then .ok (zeroHash, ! proto.requireGenesisHash) else .err (.genesisHashMismatch h.body.genesisHash gh)
  else if proto.requireGenesisHash then .err .missingGenesisHash
  else .ok (gh, false)

/-- `BlockHeader::encode_signed_tx` (block.rs lines 489-542). -/
def encodeSignedTx {AD : Type} (tbl : Protocols) (h : BlockHeader) (st : SignedTx) (ad : AD) :
    Res InvalidBlock (Stib AD) := do
  let proto ← Res.ofOption (lookup tbl h.upgradeState.current)
  if ¬ proto.supportSignedTxInBlock then .ok ⟨⟨st, ad⟩, false, false⟩
  else do
    let (id, hasId) ← stripGenesisId h st.tx.header.genesisId
    let (gh, hasHash) ← stripGenesisHash h proto st.tx.header.genesisHash
    .ok ⟨⟨{ st with tx := { st.tx with header := { st.tx.header with genesisId := id, genesisHash := gh } } }, ad⟩,
      hasId, hasHash⟩

/-- The loop of `decode_payset_groups` and `signed_txs_to_group` (block.rs lines 307-330, 744-761); `key` is the group
id. -/
def groupLoop {α : Type} (key : α → Bytes) : List α → List α → List (List α)
  | [], last => if last.isEmpty then [] else [last]
  | t :: rest, last =>
    match last with
    | [] => groupLoop key rest [t]
    | a :: _ =>
      if key a ≠ key t ∨ key a = zeroHash then last :: groupLoop key rest [t]
      else groupLoop key rest (last ++ [t])

/-- `signed_txs_to_group` (block.rs lines 744-761). -/
def signedTxsToGroup (txs : List SignedTx) : List (List SignedTx) := groupLoop (fun t => t.tx.header.group) txs []

/-- `signed_tx_groups_flatten` (block.rs lines 764-768). -/
def signedTxGroupsFlatten (gs : List (List SignedTx)) : List SignedTx := gs.flatten

/-- `Block::decode_payset_flat` (block.rs lines 333-339). -/
def decodePaysetFlat {AD : Type} (tbl : Protocols) (h : BlockHeader) : List (Stib AD) → Res InvalidBlock (List (Stad AD))
  | [] => .ok []
  | t :: rest => do
    let a ← decodeSignedTx tbl h t
    let l ← decodePaysetFlat tbl h rest
    .ok (a :: l)

/-- `Block::decode_payset_groups` (block.rs lines 307-330). The source decodes inside the loop; an error is returned at
the first transaction that fails, whatever was grouped before. -/
def decodePaysetGroups {AD : Type} (tbl : Protocols) (b : Block AD) : Res InvalidBlock (List (List (Stad AD))) := do
  let l ← decodePaysetFlat tbl b.header b.payset
  .ok (groupLoop (fun t => t.tx.tx.header.group) l [])

/-- `Transaction::id` (transaction.rs lines 199-203). -/
def txId {AD : Type} (env : Env AD) (tx : Transaction) : Bytes := env.hash (hashRep ⟨.transaction, env.encTx tx⟩)

/-- `TxMerkleElem::to_be_hashed` (tx_merkle.rs lines 40-53), and the same in `Tree::from_block` (merkle.rs lines
44-54). -/
def merkleLeaf {AD : Type} (env : Env AD) (tx : Transaction) (stib : Stib AD) : ToBeHashed :=
  ⟨.txMerkleLeaf, txId env tx ++ env.hash (hashRep ⟨.signedTxInBlock, env.encStib stib⟩)⟩

/-- The leaves of `Tree::from_block` (merkle.rs lines 38-55); a transaction that does not decode panics (line 45). -/
def merkleLeaves {AD : Type} (env : Env AD) (tbl : Protocols) (h : BlockHeader) :
    List (Stib AD) → Res Unit (List ToBeHashed)
  | [] => .ok []
  | t :: rest => do
    let a ← (match decodeSignedTx tbl h t with
      | .ok a => .ok a
      | _ => .panic)
    let l ← merkleLeaves env tbl h rest
    .ok (merkleLeaf env a.tx.tx t :: l)

/-- `TxMerkleArray::from_block` (tx_merkle.rs lines 23-36): the same leaves, but failures are errors. -/
def txMerkleArray {AD : Type} (env : Env AD) (tbl : Protocols) (h : BlockHeader) :
    List (Stib AD) → Res InvalidBlock (List ToBeHashed)
  | [] => .ok []
  | t :: rest => do
    let a ← decodeSignedTx tbl h t
    let l ← txMerkleArray env tbl h rest
    .ok (merkleLeaf env a.tx.tx t :: l)

/-- `Payset::commit` (payset.rs lines 17-30); the `genesis` flag is unused. -/
def paysetFlat {AD : Type} (env : Env AD) (payset : List (Stib AD)) : Bytes :=
  env.hash (hashRep ⟨.paysetFlat, env.encPayset payset⟩)

/-- `Block::payset_commit` (block.rs lines 278-288). -/
def paysetCommit {AD : Type} (env : Env AD) (tbl : Protocols) (b : Block AD) : Res Unit Bytes := do
  let params ← Res.ofOption (lookup tbl b.header.upgradeState.current)
  match params.paysetCommit with
  | .flat => .ok (paysetFlat env b.payset)
  | .merkle => do
    let leaves ← merkleLeaves env tbl b.header b.payset
    MerkleArray.root (MerkleArray.fromArray env.hash leaves)
  | .unsupported => .panic

/-- `Block::contents_match_header` (block.rs lines 293-304). -/
def contentsMatchHeader {AD : Type} (env : Env AD) (tbl : Protocols) (b : Block AD) : Res Unit Bool :=
  match paysetCommit env tbl b with
  | .ok expected => .ok (expected == b.header.body.txRoot)
  | .err _ => .ok false
  | .panic => .panic

/-- The timestamp chosen by `Block::new` (block.rs lines 240-250); `now` is the clock in seconds since the epoch. -/
def newTimestamp (now prev maxIncrement : Nat) : Res Unit Nat :=
  if prev > 0 then
    if now < prev then .ok prev
    else do
      let lim ← addU64 prev maxIncrement
      .ok (if now > lim then lim else now)
  else .ok now

/-- `Block::new` (block.rs lines 235-274): the new block and the parent header after the call. -/
def newBlock {AD : Type} (env : Env AD) (tbl : Protocols) (now : Nat) (prev : BlockHeader) :
    Res Unit (Block AD × BlockHeader) := do
  let (vote, state) ← (match processUpgradeParams tbl prev.body.round prev.upgradeState with
    | .ok x => .ok x
    | _ => .panic)
  let prev' : BlockHeader := { prev with upgradeState := state }
  let params ← Res.ofOption (lookup tbl state.current)
  let timestamp ← newTimestamp now prev'.body.timestamp params.maxTimestampIncrement
  let round ← addU64 prev'.body.round 1
  let blk : Block AD :=
    ⟨⟨⟨round, headerHash env prev', zeroHash, zeroHash, timestamp, prev'.body.genesisId, prev'.body.genesisHash,
        { RewardsState.default with feeSink := prev'.body.rewards.feeSink, rewardsPool := prev'.body.rewards.rewardsPool },
        vote, 0, none⟩, state⟩, []⟩
  let root ← (match paysetCommit env tbl blk with
    | .ok r => .ok r
    | .err _ => .ok zeroHash
    | .panic => .panic)
  .ok ({ blk with header := { blk.header with body := { blk.header.body with txRoot := root } } }, prev')

/-- The genesis part of `pre_check` (block.rs lines 400-424). -/
def checkGenesis (params : Params) (self prev : HeaderBody) : Res InvalidBlock Unit :=
  if self.genesisId = [] then .err .missingGenesisId
  else if prev.genesisId ≠ [] ∧ self.genesisId ≠ prev.genesisId then
    .err (.genesisIdMismatch self.genesisId prev.genesisId)
  else if params.supportGenesisHash then
    if self.genesisHash = zeroHash then .err .missingGenesisHash
    else if prev.genesisHash ≠ zeroHash ∧ prev.genesisHash ≠ self.genesisHash then
      .err (.genesisHashMismatch self.genesisHash prev.genesisHash)
    else .ok ()
  else if self.genesisHash ≠ zeroHash then .err .genesisHashNotSupported
  else .ok ()

/-- The timestamp part of `pre_check` (block.rs lines 380-397). -/
def checkTimestamp (params : Params) (self prev : HeaderBody) : Res InvalidBlock Unit :=
  if prev.timestamp > 0 then
    if self.timestamp < prev.timestamp then .err (.badEarlyTimestamp self.timestamp prev.timestamp)
    else do
      let lim ← addU64 prev.timestamp params.maxTimestampIncrement
      if self.timestamp > lim then
        .err (.badLateTimestamp self.timestamp prev.timestamp params.maxTimestampIncrement) else .ok ()
  else .ok ()

/-- `BlockHeader::pre_check` (block.rs lines 356-427): the verdict, and the parent header after the call. -/
def preCheck {AD : Type} (env : Env AD) (tbl : Protocols) (self prev : BlockHeader) :
    Res InvalidBlock Unit × BlockHeader :=
  match lookup tbl self.upgradeState.current with
  | none => (.panic, prev)
  | some params =>
    match (addU64 prev.body.round 1 : Res Unit Nat) with
    | .ok round =>
      if round ≠ self.body.round then (.err (.wrongRound round self.body.round), prev)
      else if self.body.branch ≠ headerHash env prev then (.err (.wrongBranch self.body.branch (headerHash env prev)), prev)
      else match applyUpgradeVote tbl prev.upgradeState round self.body.upgradeVote with
        | .panic => (.panic, prev)
        | .err (e, s) => (.err e, { prev with upgradeState := s })
        | .ok s =>
          (if s ≠ self.upgradeState then .err .wrongUpgradeState
            else do
              checkTimestamp params self.body prev.body
              checkGenesis params self.body prev.body,
            { prev with upgradeState := s })
    | _ => (.panic, prev)

/-- `GenesisBalances` (genesis.rs lines 161-166). -/
structure GenesisBalances where
  balances : List (Bytes × Balance.Account)
  feeSink : Bytes
  rewardsPool : Bytes
  timestamp : Nat

/-- The rewards state of the genesis block (genesis.rs lines 77-95); a missing pool account panics. -/
def genesisRewards (params : Params) (g : GenesisBalances) : Res Unit RewardsState := do
  let pool ← Res.ofOption ((g.balances.find? (fun e => e.1 = g.rewardsPool)).map (·.2))
  let rate ← divU (if params.initialRewardsRateCalculation then pool.microAlgos - params.minBalance else pool.microAlgos)
    params.rewardsRateRefreshInterval
  .ok ⟨g.feeSink, g.rewardsPool, 0, rate, 0, params.rewardsRateRefreshInterval⟩

/-- `Genesis::create_block` (genesis.rs lines 70-120). -/
def createBlock {AD : Type} (env : Env AD) (tbl : Protocols) (proto : Version) (g : GenesisBalances) (id hash : Bytes) :
    Res Unit (Block AD) := do
  let params ← Res.ofOption (lookup tbl proto)
  let rewards ← genesisRewards params g
  .ok ⟨⟨⟨0, zeroHash, hash, paysetFlat env [], g.timestamp, id,
      if params.supportGenesisHash then hash else zeroHash, rewards, UpgradeVote.default, 0, none⟩,
    { UpgradeState.default with current := proto }⟩, []⟩

/-- `Genesis::id` (genesis.rs lines 132-134). -/
def genesisId (network schemaId : List Char) : List Char := network ++ '-' :: schemaId

end Verif.Block
