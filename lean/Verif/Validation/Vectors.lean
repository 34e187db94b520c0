import Verif.Model.Sha512
import Verif.Model.Trie
import Verif.Model.Mnemonic
import Verif.Model.WordList
import Verif.Model.Address
import Verif.Model.Balance
import Verif.Model.Multisig
import Verif.Model.Transaction
/-!
# Test vectors of the repository on the model

The unit tests of the repository that have fixed expected values, run on the model with an executable SHA-512/256. These
are tests of the model, not proofs, and no theorem depends on this file: `#guard` evaluates a condition while the file is
compiled and adds nothing to the environment.
-/

namespace Verif.Validation
open Verif Verif.Sha512

def ascii (s : String) : Bytes := s.toList.map fun c => UInt8.ofNat c.toNat

-- FIPS 180-4, the string "abc"
#guard (sha512 (ascii "abc")).take 8 = [0xdd, 0xaf, 0x35, 0xa1, 0x93, 0x61, 0x7a, 0xba]
#guard (sha512_256 (ascii "abc")).take 8 = [0x53, 0x04, 0x8e, 0x26, 0x81, 0x94, 0x1e, 0xf9]

/-! ## Merkle trie (trie.rs lines 180-219, `go_compatibility`) -/

/-- The root hashes after each addition, as texts. -/
def roots (t : Trie.Trie) : List Bytes → List Bytes
  | [] => []
  | d :: ds =>
    match t.add d with
    | .ok (true, t) =>
      match t.rootHash sha512_256 with
      | .ok (h, t) => Base32.encode h :: roots t ds
      | _ => []
    | _ => []

#guard roots .new ([[0], [1], [2], [3]].map sha512_256 ++ [5 :: (sha512_256 [4]).drop 1]) =
  ["ZZLO4PKXJPOWHFV2BECUMB6FOWJMX73AHJTPWXE5Q4D42PHAQB3Q", "YBK7KNS6ZAXRCP2IBCYP3ALTTMGW7AIZUPC4NK3SBMYL4DAH6YKQ",
   "JF2ICIVIQ42MIBPODQZVBADT43WYF47VTDXV2BTHSMO4DLOIEQXQ", "GEEOOP2Q6TG46OWIHNYX2R6TKHJ64SMZBKFWA4DPFK7B2W2OPCLQ",
   "UOT7QFKDJKXHMKESLG2L2YRHVTBIOP7NMCZUKAYBDRAWPMEPERHQ"].map ascii

/-- `add_remove` (trie.rs lines 222-275) with fewer elements: deleting goes back through the roots of adding. -/
def rootsBack (t : Trie.Trie) : List Bytes → List Bytes
  | [] => []
  | d :: ds =>
    match t.rootHash sha512_256 with
    | .ok (h, t) =>
      match t.delete d with
      | .ok (true, t) => Base32.encode h :: rootsBack t ds
      | _ => []
    | _ => []

def addAll (t : Trie.Trie) : List Bytes → Option Trie.Trie
  | [] => some t
  | d :: ds => match t.add d with | .ok (true, t) => addAll t ds | _ => none

def elements : List Bytes := (List.range 40).map fun i => sha512_256 [UInt8.ofNat i, 0]

#guard (addAll .new elements).map (fun t => rootsBack t elements.reverse) = some (roots .new elements).reverse

/-! ## Hashes and addresses (hashable.rs lines 116-124, address.rs lines 115-207, user_balance.rs lines 658-675) -/

#guard Address.trimToU64 (ε := Empty) (sha512_256 (ascii "test")) = .ok 0x870d5e4358fe373d

#guard Address.display (ε := Empty) sha512_256 (Balance.appAddress sha512_256 77) =
  .ok (ascii "PCYUFPA2ZTOYWTP43MX2MOX2OWAIAXUDNC2WFCXAGMRUZ3DYD6BWFDL5YM")

def parse (s : Bytes) : Res Address.AddressError Bytes := Address.fromStr sha512_256 s

def randomAddr : Bytes := sha512_256 (ascii "randomString")

def randomStr : Bytes := match Address.display (ε := Empty) sha512_256 randomAddr with | .ok s => s | _ => []

#guard parse randomStr = .ok randomAddr
#guard parse [] = .err .wrongLength
#guard parse (randomStr.dropLast ++ ascii "1") = .err .invalidBase32
#guard parse (randomStr.dropLast ++ ascii " ") = .err .invalidBase32
#guard parse (ascii "4" ++ randomStr) = .err .invalidBase32
#guard parse (ascii "4" ++ randomStr.drop 1) = .err .invalidChecksum
#guard parse (ascii " " ++ randomStr) = .err .invalidBase32

def humanReadable : Bytes := ascii "J5YDZLPOHWB5O6MVRHNFGY4JXIQAYYM6NUJWPBSYBBIXH5ENQ4Z5LTJELU"

#guard (parse humanReadable).bind (Address.display sha512_256) = .ok humanReadable
#guard parse (humanReadable.dropLast ++ ascii "V") = .err .invalidBase32

/-! ## Mnemonics (mnemonic.rs lines 198-262) -/

def abandon : List Char := "abandon".toList

#guard Mnemonic.keyToMnemonic Mnemonic.englishWords sha512_256 (List.replicate 32 0) =
  .ok (List.replicate 24 abandon ++ ["invest".toList])
#guard [0, 24, 26, 1000].all fun n => Mnemonic.mnemonicToKey Mnemonic.englishWords sha512_256 (List.replicate n abandon) =
  .err (.wrongMnemonicLen n)
#guard Mnemonic.mnemonicToKey Mnemonic.englishWords sha512_256
  (List.replicate 23 abandon ++ ["zzz".toList, "invest".toList]) = .err (.invalidWord "zzz".toList)

/-! ## Multisignature addresses (multisig.rs lines 393-418); the keys are those of the seeds 0, 1 and 2 -/

#guard Multisig.fromPks sha512_256 1 2
    [[59, 106, 39, 188, 206, 182, 164, 45, 98, 163, 168, 208, 42, 111, 13, 115, 101, 50, 21, 119, 29, 226, 67, 166, 58,
      192, 72, 161, 139, 89, 218, 41],
     [138, 136, 227, 221, 116, 9, 241, 149, 253, 82, 219, 45, 60, 186, 93, 114, 202, 103, 9, 191, 29, 148, 18, 27, 243,
      116, 136, 1, 180, 15, 111, 92],
     [129, 57, 119, 14, 168, 125, 23, 95, 86, 163, 84, 102, 195, 76, 126, 204, 203, 141, 138, 145, 180, 238, 55, 162, 93,
      246, 15, 91, 143, 201, 179, 148]] =
  .ok [215, 156, 40, 176, 255, 146, 124, 48, 105, 103, 167, 143, 244, 248, 78, 177, 30, 135, 54, 239, 14, 170, 78, 81,
    138, 24, 124, 68, 224, 121, 67, 203]

/-! ## Transactions (transactions/tests.rs lines 47-227) -/

open Tx Consensus in
/-- Checks a transaction under a built-in protocol, changed by `f`. -/
def checked (v : Version) (tx : Transaction) (f : Params → Params := id) : Option (Res InvalidTx Unit) :=
  (lookup builtin v).map fun p => isWellFormed (compactCertSender sha512_256) tx
    ⟨[0x7, 0xda, 0xcb, 0x4b, 0x6d, 0x9e, 0xd1, 0x41, 0xb1, 0x75, 0x76, 0xbd, 0x45, 0x9a, 0xe6, 0x42, 0x1d, 0x48, 0x6d, 0xa3,
      0xd4, 0xef, 0x22, 0x47, 0xc4, 0x9, 0xa3, 0x96, 0xb8, 0x2e, 0xa2, 0x21], zero32⟩ (f p)

def sender : Bytes :=
  match parse (ascii "NDQCJNNY5WWWFLP4GFZ7MEF2QJSMZYK6OWIV2AQ7OMAVLEFCGGRHFPKJJA") with | .ok a => a | _ => []

open Tx in
def goNonparticipating (votePk selectionPk : Bytes) : Transaction :=
  ⟨{ Header.default with sender := sender, fee := 1000, firstValid := 1, lastValid := 300, note := List.replicate 10 7 },
    .keyreg ⟨votePk, selectionPk, 0, 0, 0, true⟩⟩

#guard checked .v30 (goNonparticipating Ots.defaultPk Tx.zero32) = some (.ok ())
#guard checked .v30 (goNonparticipating Ots.defaultPk Tx.zero32)
  (fun p => { p with supportBecomeNonParticipatingTransactions := false }) =
    some (.err .keyregUnsupportedSwitchToNonParticipating)
#guard match checked .v30 (goNonparticipating (List.replicate 32 1) (List.replicate 32 2)) with
  | some (.err _) => true
  | _ => false

open Tx in
def appCreate (extraPages : Nat) : Transaction :=
  ⟨{ Header.default with sender := sender, fee := 1000, firstValid := 100, lastValid := 105 },
    .appCall ⟨0, .noOp, [ascii "write"], [], [], [], ⟨0, 0⟩, ⟨0, 0⟩, [], [], extraPages⟩⟩

#guard checked .v30 (appCreate 0) = some (.ok ())
#guard checked .future (appCreate 0) = some (.ok ())
#guard checked .future (appCreate 3) = some (.ok ())

end Verif.Validation
