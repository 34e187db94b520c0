import Verif.Props.HashId
import Verif.Props.Transaction
import Verif.Model.Sha512
/-!
# C170: prefixes of hashed objects and of messages on the network
-/

namespace Verif.Props
open Verif Verif.HashId

/-- Specification: the prefix of each kind of object in the Algorand protocol (`protocol/hash.go` of go-algorand, which the
repository is a port of). -/
def protocolPrefix : HashId → String
  | .appIndex => "appID"
  | .auctionBid => "aB"
  | .auctionDeposit => "aD"
  | .auctionOutcomes => "aO"
  | .auctionParams => "aP"
  | .auctionSettlement => "aS"
  | .compactCertCoin => "ccc"
  | .compactCertPart => "ccp"
  | .compactCertSig => "ccs"
  | .agreementSelector => "AS"
  | .blockHeader => "BH"
  | .balanceRecord => "BR"
  | .credential => "CR"
  | .genesis => "GE"
  | .merkleArrayNode => "MA"
  | .message => "MX"
  | .netPrioResponse => "NPR"
  | .oneTimeSigKey1 => "OT1"
  | .oneTimeSigKey2 => "OT2"
  | .paysetFlat => "PF"
  | .payload => "PL"
  | .program => "Program"
  | .programData => "ProgData"
  | .proposerSeed => "PS"
  | .seed => "SD"
  | .specialAddr => "SpecialAddr"
  | .signedTxInBlock => "STIB"
  | .testHashable => "TE"
  | .txGroup => "TG"
  | .txMerkleLeaf => "TL"
  | .transaction => "TX"
  | .vote => "VO"

/-- Specification: the tag of each kind of message on the network (`protocol/tags.go`). -/
def protocolTag : Tag → String
  | .unknownMsgTag => "??"
  | .agreementVoteTag => "AV"
  | .compactCertSigTag => "CS"
  | .msgOfInterestTag => "MI"
  | .msgDigestSkipTag => "MS"
  | .netPrioResponseTag => "NP"
  | .pingTag => "pi"
  | .pingReplyTag => "pj"
  | .proposalPayloadTag => "PP"
  | .topicMsgRespTag => "TS"
  | .txTag => "TX"
  | .uniCatchupReqTag => "UC"
  | .uniEnsBlockReqTag => "UE"
  | .voteBundleTag => "VB"

theorem prefix_table : ∀ k ∈ HashId.all, k.chars = (protocolPrefix k).toList ↔ k ≠ .programData ∧ k ≠ .specialAddr := by
  decide +kernel

/-- **C170**, what holds: of the kinds of objects all but two have the prefix of the protocol, and so what is hashed for them begins
with it; all messages on the network have the tag of the protocol. -/
theorem C170_prefixes_partial (o : ToBeHashed) (t : Tag) :
    (o.id ≠ .programData → o.id ≠ .specialAddr →
      hashRep o = (protocolPrefix o.id).toList.map (fun c => UInt8.ofNat c.toNat) ++ o.data) ∧
    t.chars = (protocolTag t).toList := by
  constructor
  · intro h1 h2
    rw [← (prefix_table o.id (mem_all o.id)).2 ⟨h1, h2⟩]
    rfl
  · have : ∀ t ∈ Tag.all, t.chars = (protocolTag t).toList := by decide +kernel
    exact this t (tag_mem_all t)

/-- **C170** is false: data signed for programs and special addresses have other prefixes than in the protocol, so no such
object is hashed as the network hashes it. -/
theorem C170_violated (o : ToBeHashed) (h : o.id = .programData ∨ o.id = .specialAddr) :
    hashRep o ≠ (protocolPrefix o.id).toList.map (fun c => UInt8.ofNat c.toNat) ++ o.data := by
  intro he
  have h1 := List.append_cancel_right he
  rcases h with h | h <;> rw [h] at h1 <;> revert h1 <;> decide +kernel

/-- **C170** is false with a visible effect: with SHA-512/256 the sender of compact certificates is not the address that it has on
the network. -/
theorem C170_cert_sender_violated :
    Tx.compactCertSender Sha512.sha512_256 ≠
      Sha512.sha512_256 ("SpecialAddrCompactCertSender".toList.map fun c => UInt8.ofNat c.toNat) := by
  decide +kernel

/-- **C170**: a compact certificate from the sender of the network is refused. -/
theorem C170_cert_refused_violated (tx : Tx.Transaction) (f : Tx.CompactCert) (hf : tx.fields = .compactCert f)
    (hs : tx.header.sender = Sha512.sha512_256 ("SpecialAddrCompactCertSender".toList.map fun c => UInt8.ofNat c.toNat))
    (spec : Tx.SpecialAddresses) (p : Consensus.Params) :
    Tx.isWellFormed (Tx.compactCertSender Sha512.sha512_256) tx spec p ≠ .ok () := by
  intro h
  have := C108_only_sender Sha512.sha512_256 tx spec p f hf h
  exact C170_cert_sender_violated (this.1.symm.trans hs)

/-- A case of `C170_violated`. -/
example (b : Bytes) : hashRep ⟨.programData, b⟩ ≠ (protocolPrefix .programData).toList.map (fun c => UInt8.ofNat c.toNat) ++ b :=
  C170_violated ⟨.programData, b⟩ (.inl rfl)

/-- A case of `C170_cert_refused_violated`. -/
example (h : Tx.Header) (f : Tx.CompactCert) (spec : Tx.SpecialAddresses) (p : Consensus.Params) :
    Tx.isWellFormed (Tx.compactCertSender Sha512.sha512_256)
      ⟨{ h with sender := Sha512.sha512_256 ("SpecialAddrCompactCertSender".toList.map fun c => UInt8.ofNat c.toNat) },
        .compactCert f⟩ spec p ≠ .ok () := by
  generalize hs : Sha512.sha512_256 ("SpecialAddrCompactCertSender".toList.map fun c => UInt8.ofNat c.toNat) = s
  exact C170_cert_refused_violated ⟨{ h with sender := s }, .compactCert f⟩ f rfl hs.symm spec p

end Verif.Props
