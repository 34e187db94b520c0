import Verif.Base.Res
/-!
# Model of `src/protocol/hash.rs`, `src/protocol/tags.rs` and the hashing part
of `src/crypto/hashable.rs`
-/

namespace Verif.HashId
open Verif

/-- The domain separation constants of `src/protocol/hash.rs` lines 10-43. -/
inductive HashId where
  | appIndex
  | auctionBid
  | auctionDeposit
  | auctionOutcomes
  | auctionParams
  | auctionSettlement
  | compactCertCoin
  | compactCertPart
  | compactCertSig
  | agreementSelector
  | blockHeader
  | balanceRecord
  | credential
  | genesis
  | merkleArrayNode
  | message
  | netPrioResponse
  | oneTimeSigKey1
  | oneTimeSigKey2
  | paysetFlat
  | payload
  | program
  | programData
  | proposerSeed
  | seed
  | specialAddr
  | signedTxInBlock
  | testHashable
  | txGroup
  | txMerkleLeaf
  | transaction
  | vote
  deriving Repr, DecidableEq

/-- All constants, in source order. -/
def HashId.all : List HashId :=
  [.appIndex, .auctionBid, .auctionDeposit, .auctionOutcomes, .auctionParams, .auctionSettlement, .compactCertCoin, .compactCertPart, .compactCertSig, .agreementSelector, .blockHeader, .balanceRecord, .credential, .genesis, .merkleArrayNode, .message, .netPrioResponse, .oneTimeSigKey1, .oneTimeSigKey2, .paysetFlat, .payload, .program, .programData, .proposerSeed, .seed, .specialAddr, .signedTxInBlock, .testHashable, .txGroup, .txMerkleLeaf, .transaction, .vote]

/-- The characters of the constant (`hash.rs`, line given on each case). -/
def HashId.chars : HashId → List Char
  | .appIndex => ['a', 'p', 'p', 'I', 'D'] -- line 10
  | .auctionBid => ['a', 'B'] -- line 11
  | .auctionDeposit => ['a', 'D'] -- line 12
  | .auctionOutcomes => ['a', 'O'] -- line 13
  | .auctionParams => ['a', 'P'] -- line 14
  | .auctionSettlement => ['a', 'S'] -- line 15
  | .compactCertCoin => ['c', 'c', 'c'] -- line 17
  | .compactCertPart => ['c', 'c', 'p'] -- line 18
  | .compactCertSig => ['c', 'c', 's'] -- line 19
  | .agreementSelector => ['A', 'S'] -- line 21
  | .blockHeader => ['B', 'H'] -- line 22
  | .balanceRecord => ['B', 'R'] -- line 23
  | .credential => ['C', 'R'] -- line 24
  | .genesis => ['G', 'E'] -- line 25
  | .merkleArrayNode => ['M', 'A'] -- line 26
  | .message => ['M', 'X'] -- line 27
  | .netPrioResponse => ['N', 'P', 'R'] -- line 28
  | .oneTimeSigKey1 => ['O', 'T', '1'] -- line 29
  | .oneTimeSigKey2 => ['O', 'T', '2'] -- line 30
  | .paysetFlat => ['P', 'F'] -- line 31
  | .payload => ['P', 'L'] -- line 32
  | .program => ['P', 'r', 'o', 'g', 'r', 'a', 'm'] -- line 33
  | .programData => ['p', 'r', 'o', 'g', '_', 'd', 'a', 't', 'a'] -- line 34
  | .proposerSeed => ['P', 'S'] -- line 35
  | .seed => ['S', 'D'] -- line 36
  | .specialAddr => ['s', 'p', 'e', 'c', 'i', 'a', 'l', '_', 'a', 'd', 'd', 'r'] -- line 37
  | .signedTxInBlock => ['S', 'T', 'I', 'B'] -- line 38
  | .testHashable => ['T', 'E'] -- line 39
  | .txGroup => ['T', 'G'] -- line 40
  | .txMerkleLeaf => ['T', 'L'] -- line 41
  | .transaction => ['T', 'X'] -- line 42
  | .vote => ['V', 'O'] -- line 43

/-- `as_bytes` of an ASCII string. -/
def asciiBytes (cs : List Char) : Bytes := cs.map fun c => UInt8.ofNat c.toNat

/-- `id.as_bytes()`. -/
def HashId.bytes (h : HashId) : Bytes := asciiBytes h.chars

/-- What `Hashable::to_be_hashed` returns (`hashable.rs` line 33): tag and payload. -/
structure ToBeHashed where
  id : HashId
  data : Bytes
  deriving Repr, DecidableEq

/-- `Hashable::hash_rep` (`hashable.rs` lines 35-38). -/
def hashRep (o : ToBeHashed) : Bytes := o.id.bytes ++ o.data

/-- `hash_obj` (`hashable.rs` lines 86-88); `hash` is SHA-512/256 (lines 81-83), a parameter. -/
def hashObj {D : Type} (hash : Bytes → D) (o : ToBeHashed) : D := hash (hashRep o)

/-- The network message tags of `src/protocol/tags.rs` lines 12-27. -/
inductive Tag where
  | unknownMsgTag
  | agreementVoteTag
  | compactCertSigTag
  | msgOfInterestTag
  | msgDigestSkipTag
  | netPrioResponseTag
  | pingTag
  | pingReplyTag
  | proposalPayloadTag
  | topicMsgRespTag
  | txTag
  | uniCatchupReqTag
  | uniEnsBlockReqTag
  | voteBundleTag
  deriving Repr, DecidableEq

/-- All tags in source order. -/
def Tag.all : List Tag :=
  [.unknownMsgTag, .agreementVoteTag, .compactCertSigTag, .msgOfInterestTag, .msgDigestSkipTag, .netPrioResponseTag, .pingTag, .pingReplyTag, .proposalPayloadTag, .topicMsgRespTag, .txTag, .uniCatchupReqTag, .uniEnsBlockReqTag, .voteBundleTag]

/-- The characters of a tag (`tags.rs`, line given on each case). -/
def Tag.chars : Tag → List Char
  | .unknownMsgTag => ['?', '?'] -- line 12
  | .agreementVoteTag => ['A', 'V'] -- line 13
  | .compactCertSigTag => ['C', 'S'] -- line 14
  | .msgOfInterestTag => ['M', 'I'] -- line 15
  | .msgDigestSkipTag => ['M', 'S'] -- line 16
  | .netPrioResponseTag => ['N', 'P'] -- line 17
  | .pingTag => ['p', 'i'] -- line 18
  | .pingReplyTag => ['p', 'j'] -- line 19
  | .proposalPayloadTag => ['P', 'P'] -- line 20
  | .topicMsgRespTag => ['T', 'S'] -- line 21
  | .txTag => ['T', 'X'] -- line 22
  | .uniCatchupReqTag => ['U', 'C'] -- line 23
  | .uniEnsBlockReqTag => ['U', 'E'] -- line 24
  | .voteBundleTag => ['V', 'B'] -- line 27

end Verif.HashId
