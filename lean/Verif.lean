import Verif.Props.Units
import Verif.Props.HashId
import Verif.Props.Bitset
import Verif.Props.Mnemonic
import Verif.Props.Address
import Verif.Props.Trie
import Verif.Props.MerkleArray
import Verif.Props.Multisig
import Verif.Props.MultisigReasons
import Verif.Props.Ots
import Verif.Model.OtsGuard
import Verif.Props.OtsGuard
import Verif.Model.ManagerGuard
import Verif.Props.ManagerGuard
import Verif.Props.OtsForgery
import Verif.Props.Vrf
import Verif.Props.Consensus
import Verif.Props.Balance
import Verif.Props.Transaction
import Verif.Props.Upgrade
import Verif.Props.Rewards
import Verif.Props.Block
import Verif.Props.Header
import Verif.Props.ChainRun
import Verif.Props.Codec
import Verif.Props.PaysetCommit
import Verif.Props.Committee
import Verif.Props.Account
import Verif.Props.AccountManager
import Verif.Model.StoreFault
import Verif.Props.StoreFault
import Verif.Props.KeyFile
import Verif.Props.Config
import Verif.Props.TrieReopen
import Verif.Props.Algokey
import Verif.Props.AlgokeyPart
import Verif.Props.Msgpack
import Verif.Props.Utf8
import Verif.Props.CodecRead
import Verif.Props.CodecWire
import Verif.Model.Genesis
import Verif.Lemmas.Genesis
import Verif.Props.Genesis
import Verif.Props.GenesisRead
import Verif.Model.TrieFault
import Verif.Lemmas.TrieFault
import Verif.Props.TrieFault
import Verif.Props.TrieEarly
import Verif.Props.TrieAny
import Verif.Model.BlockRead
import Verif.Lemmas.BlockRead
import Verif.Props.BlockRead
import Verif.Props.PaysetRead
import Verif.Model.ConfigRoot
import Verif.Model.RootThreads
import Verif.Props.ConfigRoot
import Verif.Model.Estimate
import Verif.Props.Estimate
import Verif.Props.TrieShape
import Verif.Model.ConsensusFile
import Verif.Props.ConsensusFile
import Verif.Model.Messages
import Verif.Props.Reasons
import Verif.Props.Messages
import Verif.Props.Texts
import Verif.Model.JsonText
import Verif.Props.JsonText
import Verif.Props.Inclusion
import Verif.Model.FileSave
import Verif.Props.FileSave
import Verif.Lemmas.TrieCost
import Verif.Props.TrieCost
import Verif.Model.NodeBytes
import Verif.Props.NodeBytes
import Verif.Validation.Vectors
import Verif.Model.Sha512
import Verif.Curve.Primes
import Verif.Curve.Edwards
import Verif.Curve.Ed25519
import Verif.Model.Curve25519
import Verif.Model.Ed25519
import Verif.Props.Ed25519
import Verif.Props.Ed25519Sig
import Verif.Props.CommitteeKeys
import Verif.Props.ProtocolTags
import Verif.Props.KeyPairs
import Verif.Props.StrictSig
import Verif.Props.ConfigDefaults
import Verif.Props.ConsensusHistory
import Verif.Props.VrfPairs
import Verif.Props.Concrete
import Verif.Props.MergeExact
import Verif.Props.DamagedStore
import Verif.Props.Exact
import Verif.Props.MerkleProofs
import Verif.Validation.Vrf
import Verif.Props.Release
import Verif.Props.TrieSize
import Verif.Props.Ledger
import Verif.Model.Double
import Verif.Props.Double
import Verif.Props.Dilution
import Verif.Model.Capacity
import Verif.Props.Capacity
import Verif.Props.Split
import Verif.Props.SplitDouble
import Verif.Props.Mistyped
import Verif.Props.MistypedAddress
