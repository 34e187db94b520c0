import Verif.Model.Transaction
import Verif.Model.Upgrade
import Verif.Model.KeyFile
import Verif.Model.Address
/-!
# Model of the messages of `InvalidTx`, `PaymentError` and `InvalidBlock`

`src/data/transactions/errors.rs`, `src/data/transactions/payment.rs` and `src/data/bookkeeping/errors.rs` derive
`Display` with `thiserror`: the attribute `#[error("...")]` is a format string for the values of the variant. A message
is a list of pieces, the constant parts and the values; the text is UTF-8. Variants that nothing returns are left out.
-/

namespace Verif.Messages
open Verif Verif.Tx Verif.Block Verif.Config Verif.Address

/-- A part of a message: constant, or a value. -/
inductive Piece where
  | lit (s : Bytes)
  | val (s : Bytes)
  deriving Repr, DecidableEq

/-- The bytes of a piece. -/
def Piece.bytes : Piece → Bytes
  | .lit s => s
  | .val s => s

/-- The text of a message. -/
def render (t : List Piece) : Bytes := t.flatMap Piece.bytes

/-- UTF-8 of ASCII characters. -/
def asc (s : List Char) : Bytes := s.map fun c => UInt8.ofNat c.toNat

/-- `{}` of an integer or a `Round` (units.rs lines 64-68). -/
def num (n : Nat) : Bytes := asc (decimal n)

/-- The constant part of `{}` of `MicroAlgos` (units.rs lines 50-54): `μA `. -/
def microPrefix : Bytes := [0xCE, 0xBC, 65, 32]

/-- The messages of `InvalidTx` (transactions/errors.rs lines 12-130). The three payment errors are wrapped in
`InvalidPayment`, whose message is constant (lines 128-129). -/
def txMessage : InvalidTx → List Piece
  | .dead round firstValid lastValid => [.lit (asc ['r', 'o', 'u', 'n', 'd', ' ']), .val (num round), .lit (asc [' ',
      'o', 'u', 't', 's', 'i', 'd', 'e', ' ', 'v', 'a', 'l', 'i', 'd', ' ', 'r', 'a', 'n', 'g', 'e', ' ', 'o', 'f',
      ' ']), .val (num firstValid), .lit (asc ['-']), .val (num lastValid)]
  | .genesisIdMismatch given expected => [.lit (asc ['p', 'r', 'o', 'v', 'i', 'd', 'e', 'd', ' ', 'g', 'e', 'n', 'e',
      's', 'i', 's', ' ', 'I', 'D', ' ']), .val (given), .lit (asc [' ', 'd', 'o', 'e', 's', ' ', 'n', 'o', 't', ' ',
      'm', 'a', 't', 'c', 'h', ',', ' ', 'e', 'x', 'p', 'e', 'c', 't', 'e', 'd', ' ']), .val (expected)]
  | .genesisHashMismatch given _ => [.lit (asc ['p', 'r', 'o', 'v', 'i', 'd', 'e', 'd', ' ', 'g', 'e', 'n', 'e', 's',
      'i', 's', ' ', 'h', 'a', 's', 'h', ' ']), .val (hashDisplay given), .lit (asc [' ', 'd', 'o', 'e', 's', ' ',
      'n', 'o', 't', ' ', 'm', 'a', 't', 'c', 'h', ',', ' ', 'e', 'x', 'p', 'e', 'c', 't', 'e', 'd', ' ']),
      .val (hashDisplay given)]
  | .genesisHashMissing => [.lit (asc ['g', 'e', 'n', 'e', 's', 'i', 's', ' ', 'h', 'a', 's', 'h', ' ', 'r', 'e', 'q',
      'u', 'i', 'r', 'e', 'd', ' ', 'b', 'u', 't', ' ', 'm', 'i', 's', 's', 'i', 'n', 'g'])]
  | .genesisHashNotAllowed => [.lit (asc ['g', 'e', 'n', 'e', 's', 'i', 's', ' ', 'h', 'a', 's', 'h', ' ', 'i', 's',
      ' ', 'n', 'o', 't', ' ', 'a', 'l', 'l', 'o', 'w', 'e', 'd'])]
  | .assetTxsNotSupported => [.lit (asc ['a', 's', 's', 'e', 't', ' ', 't', 'r', 'a', 'n', 's', 'a', 'c', 't', 'i',
      'o', 'n', 's', ' ', 'n', 'o', 't', ' ', 's', 'u', 'p', 'p', 'o', 'r', 't', 'e', 'd'])]
  | .appTxsNotSupported => [.lit (asc ['a', 'p', 'p', 'l', 'i', 'c', 'a', 't', 'i', 'o', 'n', ' ', 't', 'r', 'a', 'n',
      's', 'a', 'c', 't', 'i', 'o', 'n', 's', ' ', 'n', 'o', 't', ' ', 's', 'u', 'p', 'p', 'o', 'r', 't', 'e', 'd'])]
  | .compactcertTxsNotSupported => [.lit (asc ['c', 'o', 'm', 'p', 'a', 'c', 't', ' ', 'c', 'e', 'r', 't', 's', ' ',
      'n', 'o', 't', ' ', 's', 'u', 'p', 'p', 'o', 'r', 't', 'e', 'd'])]
  | .leasesNotSupported => [.lit (asc ['t', 'r', 'a', 'n', 's', 'a', 'c', 't', 'i', 'o', 'n', ' ', 'l', 'e', 'a', 's',
      'e', 's', ' ', 'a', 'r', 'e', ' ', 'n', 'o', 't', ' ', 'y', 'e', 't', ' ', 's', 'u', 'p', 'p', 'o', 'r', 't',
      'e', 'd'])]
  | .groupsNotSupported => [.lit (asc ['t', 'r', 'a', 'n', 's', 'a', 'c', 't', 'i', 'o', 'n', ' ', 'g', 'r', 'o', 'u',
      'p', 's', ' ', 'a', 'r', 'e', ' ', 'n', 'o', 't', ' ', 'y', 'e', 't', ' ', 's', 'u', 'p', 'p', 'o', 'r', 't',
      'e', 'd'])]
  | .rekeyingNotSupported => [.lit (asc ['r', 'e', 'k', 'e', 'y', 'i', 'n', 'g', ' ', 'i', 's', ' ', 'n', 'o', 't',
      ' ', 'y', 'e', 't', ' ', 's', 'u', 'p', 'p', 'o', 'r', 't', 'e', 'd'])]
  | .feeLessThanMin a b => [.lit (asc ['t', 'x', ' ', 'h', 'a', 's', ' ', 'f', 'e', 'e', ' ', 'o', 'f', ' ']),
      .lit microPrefix, .val (num a), .lit (asc [' ', 'w', 'h', 'i', 'c', 'h', ' ', 'i', 's', ' ', 'l', 'e', 's', 's',
      ' ', 't', 'h', 'a', 'n', ' ', 'm', 'i', 'n', ' ', '(']), .lit microPrefix, .val (num b), .lit (asc [')'])]
  | .zeroSender => [.lit (asc ['t', 'r', 'a', 'n', 's', 'a', 'c', 't', 'i', 'o', 'n', ' ', 's', 'e', 'n', 'd', 'e',
      'r', ' ', 'n', 'o', 't', ' ', 's', 'e', 't', ' ', '(', 's', 'e', 't', ' ', 't', 'o', ' ', 'z', 'e', 'r', 'o',
      ')'])]
  | .badValidityRange a b => [.lit (asc ['b', 'a', 'd', ' ', 'v', 'a', 'l', 'i', 'd', 't', 'y', ' ', 'r', 'a', 'n',
      'g', 'e', ' ', 'o', 'f', ' ']), .val (num a), .lit (asc ['-']), .val (num b)]
  | .excessiveValidityRange a b => [.lit (asc ['v', 'a', 'l', 'i', 'd', 'i', 't', 'y', ' ', 'r', 'a', 'n', 'g', 'e',
      ' ']), .val (num a), .lit (asc ['-']), .val (num b), .lit (asc [' ', 'i', 's', ' ', 't', 'o', 'o', ' ', 'l',
      'a', 'r', 'g', 'e'])]
  | .noteTooBig a b => [.lit (asc ['t', 'h', 'e', ' ', 'p', 'r', 'o', 'v', 'i', 'd', 'e', 'd', ' ', 'n', 'o', 't',
      'e', ' ', 'i', 's', ' ', 't', 'o', 'o', ' ', 'l', 'o', 'n', 'g', ' ']), .val (num a), .lit (asc [',', ' ', 'm',
      'a', 'x', ' ', 'i', 's', ' ']), .val (num b)]
  | .assetNameTooBig a b => [.lit (asc ['t', 'h', 'e', ' ', 'p', 'r', 'o', 'v', 'i', 'd', 'e', 'd', ' ', 'a', 's',
      's', 'e', 't', ' ', 'n', 'a', 'm', 'e', ' ', 'i', 's', ' ', 't', 'o', 'o', ' ', 'l', 'o', 'n', 'g', ' ']),
      .val (num a), .lit (asc [',', ' ', 'm', 'a', 'x', ' ', 'i', 's', ' ']), .val (num b)]
  | .assetUnitNameTooBig a b => [.lit (asc ['t', 'h', 'e', ' ', 'p', 'r', 'o', 'v', 'i', 'd', 'e', 'd', ' ', 'a', 's',
      's', 'e', 't', ' ', 'u', 'n', 'i', 't', ' ', 'n', 'a', 'm', 'e', ' ', 'i', 's', ' ', 't', 'o', 'o', ' ', 'l',
      'o', 'n', 'g', ' ']), .val (num a), .lit (asc [',', ' ', 'm', 'a', 'x', ' ', 'i', 's', ' ']), .val (num b)]
  | .assetUrlTooBig a b => [.lit (asc ['t', 'h', 'e', ' ', 'p', 'r', 'o', 'v', 'i', 'd', 'e', 'd', ' ', 'a', 's', 's',
      'e', 't', ' ', 'U', 'R', 'L', ' ', 'i', 's', ' ', 't', 'o', 'o', ' ', 'l', 'o', 'n', 'g', ' ']), .val (num a),
      .lit (asc [',', ' ', 'm', 'a', 'x', ' ', 'i', 's', ' ']), .val (num b)]
  | .assetDecimalsTooHigh a b => [.lit (asc ['t', 'h', 'e', ' ', 'p', 'r', 'o', 'v', 'i', 'd', 'e', 'd', ' ', 'a',
      's', 's', 'e', 't', ' ', 'd', 'e', 'c', 'i', 'm', 'a', 'l', ' ', 'p', 'r', 'e', 'c', 'i', 's', 'i', 'o', 'n',
      ' ', 'i', 's', ' ', 't', 'o', 'o', ' ', 'h', 'i', 'g', 'h', 't', ' ']), .val (num a), .lit (asc [',', ' ', 'm',
      'a', 'x', ' ', 'i', 's', ' ']), .val (num b)]
  | .keyregFirstVotingRoundGreaterThanLast => [.lit (asc ['t', 'r', 'a', 'n', 's', 'a', 'c', 't', 'i', 'o', 'n', ' ',
      'f', 'i', 'r', 's', 't', ' ', 'v', 'o', 't', 'i', 'n', 'g', ' ', 'r', 'o', 'u', 'n', 'd', ' ', 'n', 'e', 'e',
      'd', ' ', 't', 'o', ' ', 'b', 'e', ' ', 'l', 'e', 's', 's', ' ', 't', 'h', 'a', 'n', ' ', 'i', 't', 's', ' ',
      'l', 'a', 's', 't', ' ', 'v', 'o', 't', 'i', 'n', 'g', ' ', 'r', 'o', 'u', 'n', 'd'])]
  | .keyregNonCoherentVotingKeys => [.lit (asc ['f', 'o', 'l', 'l', 'o', 'w', 'i', 'n', 'g', ' ', 'f', 'i', 'e', 'l',
      'd', 's', ' ', 'n', 'e', 'e', 'd', ' ', 't', 'o', ' ', 'b', 'e', ' ', 'c', 'l', 'e', 'a', 'r', '/', 's', 'e',
      't', ' ', 't', 'o', 'g', 'e', 't', 'h', 'e', 'r', ':', ' ', 'v', 'o', 't', 'e', 'k', 'e', 'y', ',', ' ', 's',
      'e', 'l', 'k', 'e', 'y', ',', ' ', 'v', 'o', 't', 'e', 'k', 'd'])]
  | .keyregOfflineTransactionHasVotingRounds => [.lit (asc ['o', 'n', ' ', 'g', 'o', 'i', 'n', 'g', ' ', 'o', 'f',
      'f', 'l', 'i', 'n', 'e', ' ', 'k', 'e', 'y', ' ', 'r', 'e', 'g', 'i', 's', 't', 'r', 'a', 't', 'i', 'o', 'n',
      ' ', 't', 'r', 'a', 'n', 's', 'a', 'c', 't', 'i', 'o', 'n', ',', ' ', 't', 'h', 'e', ' ', 'v', 'o', 't', 'e',
      ' ', 'f', 'i', 'r', 's', 't', ' ', 'a', 'n', 'd', ' ', 'v', 'o', 't', 'e', ' ', 'l', 'a', 's', 't', ' ', 'f',
      'i', 'e', 'l', 'd', 's', ' ', 's', 'h', 'o', 'u', 'l', 'd', ' ', 'n', 'o', 't', ' ', 'b', 'e', ' ', 's', 'e',
      't'])]
  | .keyregUnsupportedSwitchToNonParticipating => [.lit (asc ['t', 'r', 'a', 'n', 's', 'a', 'c', 't', 'i', 'o', 'n',
      ' ', 't', 'r', 'i', 'e', 's', ' ', 't', 'o', ' ', 'm', 'a', 'r', 'k', ' ', 'a', 'n', ' ', 'a', 'c', 'c', 'o',
      'u', 'n', 't', ' ', 'a', 's', ' ', 'n', 'o', 'n', 'p', 'a', 'r', 't', 'i', 'c', 'i', 'p', 'a', 't', 'i', 'n',
      'g', ',', ' ', 'b', 'u', 't', ' ', 't', 'h', 'a', 't', ' ', 't', 'r', 'a', 'n', 's', 'a', 'c', 't', 'i', 'o',
      'n', ' ', 'i', 's', ' ', 'n', 'o', 't', ' ', 's', 'u', 'p', 'p', 'o', 'r', 't', 'e', 'd'])]
  | .keyregGoingOnlineWithNonParticipating => [.lit (asc ['t', 'r', 'a', 'n', 's', 'a', 'c', 't', 'i', 'o', 'n', ' ',
      't', 'r', 'i', 'e', 's', ' ', 't', 'o', ' ', 'r', 'e', 'g', 'i', 's', 't', 'e', 'r', ' ', 'k', 'e', 'y', 's',
      ' ', 't', 'o', ' ', 'g', 'o', ' ', 'o', 'n', 'l', 'i', 'n', 'e', ',', ' ', 'b', 'u', 't', ' ', 'n', 'o', 'n',
      'p', 'a', 'r', 't', 'i', 'c', 'i', 'p', 'a', 't', 'o', 'r', 'y', ' ', 'f', 'l', 'a', 'g', ' ', 'i', 's', ' ',
      's', 'e', 't'])]
  | .keyregGoingOnlineWithZeroVoteLast => [.lit (asc ['t', 'r', 'a', 'n', 's', 'a', 'c', 't', 'i', 'o', 'n', ' ', 't',
      'r', 'i', 'e', 's', ' ', 't', 'o', ' ', 'r', 'e', 'g', 'i', 's', 't', 'e', 'r', ' ', 'k', 'e', 'y', 's', ' ',
      't', 'o', ' ', 'g', 'o', ' ', 'o', 'n', 'l', 'i', 'n', 'e', ',', ' ', 'b', 'u', 't', ' ', 'v', 'o', 't', 'e',
      ' ', 'l', 'a', 's', 't', ' ', 'i', 's', ' ', 's', 'e', 't', ' ', 't', 'o', ' ', 'z', 'e', 'r', 'o'])]
  | .keyregGoingOnlineWithFirstVoteAfterLastValid => [.lit (asc ['t', 'r', 'a', 'n', 's', 'a', 'c', 't', 'i', 'o',
      'n', ' ', 't', 'r', 'i', 'e', 's', ' ', 't', 'o', ' ', 'r', 'e', 'g', 'i', 's', 't', 'e', 'r', ' ', 'k', 'e',
      'y', 's', ' ', 't', 'o', ' ', 'g', 'o', ' ', 'o', 'n', 'l', 'i', 'n', 'e', ',', ' ', 'b', 'u', 't', ' ', 'f',
      'i', 'r', 's', 't', ' ', 'v', 'o', 't', 'i', 'n', 'g', ' ', 'r', 'o', 'u', 'n', 'd', ' ', 'i', 's', ' ', 'b',
      'e', 'y', 'o', 'n', 'd', ' ', 't', 'h', 'e', ' ', 'r', 'o', 'u', 'n', 'd', ' ', 'a', 'f', 't', 'e', 'r', ' ',
      'l', 'a', 's', 't', ' ', 'v', 'a', 'l', 'i', 'd', ' ', 'r', 'o', 'u', 'n', 'd'])]
  | .changeProgramWithoutUpdate => [.lit (asc ['p', 'r', 'o', 'g', 'r', 'a', 'm', 's', ' ', 'm', 'a', 'y', ' ', 'o',
      'n', 'l', 'y', ' ', 'b', 'e', ' ', 's', 'p', 'e', 'c', 'i', 'f', 'i', 'e', 'd', ' ', 'd', 'u', 'r', 'i', 'n',
      'g', ' ', 'a', 'p', 'p', 'l', 'i', 'c', 'a', 't', 'i', 'o', 'n', ' ', 'c', 'r', 'e', 'a', 't', 'i', 'o', 'n',
      ' ', 'o', 'r', ' ', 'u', 'p', 'd', 'a', 't', 'e'])]
  | .changeAppStateSchema => [.lit (asc ['l', 'o', 'c', 'a', 'l', ' ', 'a', 'n', 'd', ' ', 'g', 'l', 'o', 'b', 'a',
      'l', ' ', 's', 't', 'a', 't', 'e', ' ', 's', 'c', 'h', 'e', 'm', 'a', 's', ' ', 'a', 'r', 'e', ' ', 'i', 'm',
      'm', 'u', 't', 'a', 'b', 'l', 'e'])]
  | .changeExtraProgramPages => [.lit (asc ['n', 'u', 'm', 'b', 'e', 'r', ' ', 'o', 'f', ' ', 'e', 'x', 't', 'r', 'a',
      ' ', 'p', 'r', 'o', 'g', 'r', 'a', 'm', ' ', 'p', 'a', 'g', 'e', 's', ' ', 'i', 's', ' ', 'i', 'm', 'm', 'u',
      't', 'a', 'b', 'l', 'e'])]
  | .tooManyAppArgs a b => [.lit (asc ['t', 'o', 'o', ' ', 'm', 'a', 'n', 'y', ' ', 'a', 'p', 'p', 'l', 'i', 'c', 'a',
      't', 'i', 'o', 'n', ' ', 'a', 'r', 'g', 's', ' ']), .val (num a), .lit (asc [',', ' ', 'm', 'a', 'x', ' ', 'i',
      's', ' ']), .val (num b)]
  | .appArgsTotalTooLong a b => [.lit (asc ['a', 'p', 'p', 'l', 'i', 'c', 'a', 't', 'i', 'o', 'n', ' ', 'a', 'r', 'g',
      's', ' ', 't', 'o', 't', 'a', 'l', ' ', 'l', 'e', 'n', 'g', 't', 'h', ' ', 't', 'o', 'o', ' ', 'l', 'o', 'n',
      'g', ' ']), .val (num a), .lit (asc [' ', 'b', 'y', 't', 'e', 's', ',', ' ', 'm', 'a', 'x', ' ', 'i', 's',
      ' ']), .val (num b), .lit (asc [' ', 'b', 'y', 't', 'e', 's'])]
  | .accountsTooLong a b => [.lit (asc ['a', 'c', 'c', 'o', 'u', 'n', 't', 's', ' ', 'l', 'i', 's', 't', ' ', 't',
      'o', 'o', ' ', 'l', 'o', 'n', 'g', ' ']), .val (num a), .lit (asc [',', ' ', 'm', 'a', 'x', ' ', 'i', 's',
      ' ']), .val (num b)]
  | .foreignAppTooLong a b => [.lit (asc ['f', 'o', 'r', 'e', 'i', 'g', 'n', ' ', 'a', 'p', 'p', 's', ' ', 'l', 'i',
      's', 't', ' ', 't', 'o', 'o', ' ', 'l', 'o', 'n', 'g', ' ']), .val (num a), .lit (asc [',', ' ', 'm', 'a', 'x',
      ' ', 'i', 's', ' ']), .val (num b)]
  | .foreignAssetsTooLong a b => [.lit (asc ['f', 'o', 'r', 'e', 'i', 'g', 'n', ' ', 'a', 's', 's', 'e', 't', 's',
      ' ', 'l', 'i', 's', 't', ' ', 't', 'o', 'o', ' ', 'l', 'o', 'n', 'g', ' ']), .val (num a), .lit (asc [',', ' ',
      'm', 'a', 'x', ' ', 'i', 's', ' ']), .val (num b)]
  | .tooManyReferences a b => [.lit (asc ['t', 'o', 'o', ' ', 'm', 'a', 'n', 'y', ' ', 'r', 'e', 'f', 'e', 'r', 'e',
      'n', 'c', 'e', 's', ' ']), .val (num a), .lit (asc [',', ' ', 'm', 'a', 'x', ' ', 'i', 's', ' ']), .val (num b)]
  | .tooManyExtraProgramPages a b => [.lit (asc ['t', 'o', 'o', ' ', 'm', 'a', 'n', 'y', ' ', 'e', 'x', 't', 'r', 'a',
      ' ', 'p', 'r', 'o', 'g', 'r', 'a', 'm', ' ', 'p', 'a', 'g', 'e', 's', ' ']), .val (num a), .lit (asc [',', ' ',
      'm', 'a', 'x', ' ', 'i', 's', ' ']), .val (num b)]
  | .approvalProgramTooLong a b => [.lit (asc ['a', 'p', 'p', 'r', 'o', 'v', 'a', 'l', ' ', 'p', 'r', 'o', 'g', 'r',
      'a', 'm', ' ', 't', 'o', 'o', ' ', 'l', 'o', 'n', 'g', ' ']), .val (num a), .lit (asc [' ', 'b', 'y', 't', 'e',
      's', ',', ' ', 'm', 'a', 'x', ' ', 'i', 's', ' ']), .val (num b), .lit (asc [' ', 'b', 'y', 't', 'e', 's'])]
  | .clearStateProgramTooLong a b => [.lit (asc ['c', 'l', 'e', 'a', 'r', ' ', 's', 't', 'a', 't', 'e', ' ', 'p', 'r',
      'o', 'g', 'r', 'a', 'm', ' ', 't', 'o', 'o', ' ', 'l', 'o', 'n', 'g', ' ']), .val (num a), .lit (asc [' ', 'b',
      'y', 't', 'e', 's', ',', ' ', 'm', 'a', 'x', ' ', 'i', 's', ' ']), .val (num b), .lit (asc [' ', 'b', 'y', 't',
      'e', 's'])]
  | .appProgramsTooLong a b => [.lit (asc ['a', 'p', 'p', ' ', 'p', 'r', 'o', 'g', 'r', 'a', 'm', 's', ' ', 't', 'o',
      'o', ' ', 'l', 'o', 'n', 'g', ' ']), .val (num a), .lit (asc [' ', 'b', 'y', 't', 'e', 's', ',', ' ', 'm', 'a',
      'x', ' ', 't', 'o', 't', 'a', 'l', ' ', 'i', 's', ' ']), .val (num b), .lit (asc [' ', 'b', 'y', 't', 'e',
      's'])]
  | .localStateSchemaTooLarge a b => [.lit (asc ['l', 'o', 'c', 'a', 'l', ' ', 's', 't', 'a', 't', 'e', ' ', 's', 'c',
      'h', 'e', 'm', 'a', ' ', 't', 'o', 'o', ' ', 'l', 'a', 'r', 'g', 'e', ' ']), .val (num a), .lit (asc [',', ' ',
      'm', 'a', 'x', ' ', 'i', 's', ' ']), .val (num b)]
  | .globalStateSchemaTooLarge a b => [.lit (asc ['g', 'l', 'o', 'b', 'a', 'l', ' ', 's', 't', 'a', 't', 'e', ' ',
      's', 'c', 'h', 'e', 'm', 'a', ' ', 't', 'o', 'o', ' ', 'l', 'a', 'r', 'g', 'e', ' ']), .val (num a),
      .lit (asc [',', ' ', 'm', 'a', 'x', ' ', 'i', 's', ' ']), .val (num b)]
  | .ccInvalidSender => [.lit (asc ['s', 'e', 'n', 'd', 'e', 'r', ' ', 'm', 'u', 's', 't', ' ', 'b', 'e', ' ', 't',
      'h', 'e', ' ', 'c', 'o', 'm', 'p', 'a', 'c', 't', ' ', 'c', 'e', 'r', 't', ' ', 's', 'e', 'n', 'd', 'e', 'r'])]
  | .ccNonZeroFee => [.lit (asc ['f', 'e', 'e', ' ', 'm', 'u', 's', 't', ' ', 'b', 'e', ' ', 'z', 'e', 'r', 'o'])]
  | .ccNonEmptyNote => [.lit (asc ['n', 'o', 't', 'e', ' ', 'm', 'u', 's', 't', ' ', 'b', 'e', ' ', 'e', 'm', 'p',
      't', 'y'])]
  | .ccNonZeroGroup => [.lit (asc ['g', 'r', 'o', 'u', 'p', ' ', 'm', 'u', 's', 't', ' ', 'b', 'e', ' ', 'z', 'e',
      'r', 'o'])]
  | .ccNonZeroRekey => [.lit (asc ['r', 'e', 'k', 'e', 'y', ' ', 'm', 'u', 's', 't', ' ', 'b', 'e', ' ', 'z', 'e',
      'r', 'o'])]
  | .ccNonZeroLease => [.lit (asc ['l', 'e', 'a', 's', 'e', ' ', 'm', 'u', 's', 't', ' ', 'b', 'e', ' ', 'z', 'e',
      'r', 'o'])]
  | .cannotCloseToSender => [.lit (asc ['i', 'n', 'v', 'a', 'l', 'i', 'd', ' ', 'p', 'a', 'y', 'm', 'e', 'n', 't',
      ' ', 't', 'r', 'a', 'n', 's', 'a', 'c', 't', 'i', 'o', 'n'])]
  | .cannotSpendFromFeeSink => [.lit (asc ['i', 'n', 'v', 'a', 'l', 'i', 'd', ' ', 'p', 'a', 'y', 'm', 'e', 'n', 't',
      ' ', 't', 'r', 'a', 'n', 's', 'a', 'c', 't', 'i', 'o', 'n'])]
  | .cannotCloseFeeSink => [.lit (asc ['i', 'n', 'v', 'a', 'l', 'i', 'd', ' ', 'p', 'a', 'y', 'm', 'e', 'n', 't', ' ',
      't', 'r', 'a', 'n', 's', 'a', 'c', 't', 'i', 'o', 'n'])]

/-- The messages of `PaymentError` (payment.rs lines 11-19), which `source()` of `InvalidPayment` returns. -/
def txCause : InvalidTx → Option (List Piece)
  | .cannotCloseToSender => some [.lit (asc ['t', 'r', 'a', 'n', 's', 'a', 'c', 't', 'i', 'o', 'n', ' ', 'c', 'a',
      'n', 'n', 'o', 't', ' ', 'c', 'l', 'o', 's', 'e', ' ', 'a', 'c', 'c', 'o', 'u', 'n', 't', ' ', 't', 'o', ' ',
      'i', 't', 's', ' ', 's', 'e', 'n', 'd', 'e', 'r'])]
  | .cannotSpendFromFeeSink => some [.lit (asc ['c', 'a', 'n', 'n', 'o', 't', ' ', 's', 'p', 'e', 'n', 'd', ' ', 'f',
      'r', 'o', 'm', ' ', 'f', 'e', 'e', ' ', 's', 'i', 'n', 'k', '\'', 's', ' ', 'a', 'd', 'd', 'r', 'e', 's', 's'])]
  | .cannotCloseFeeSink => some [.lit (asc ['c', 'a', 'n', 'n', 'o', 't', ' ', 'c', 'l', 'o', 's', 'e', ' ', 'f', 'e',
      'e', ' ', 's', 'i', 'n', 'k'])]
  | _ => none

/-- The messages of `InvalidBlock` (bookkeeping/errors.rs lines 10-61). -/
def blockMessage : InvalidBlock → List Piece
  | .wrongRound a b => [.lit (asc ['b', 'l', 'o', 'c', 'k', ' ', 'i', 's', ' ', 'f', 'o', 'r', ' ', 'r', 'o', 'u',
      'n', 'd', ' ']), .val (num a), .lit (asc [',', ' ', 'e', 'x', 'p', 'e', 'c', 't', 'e', 'd', ' ', 'r', 'o', 'u',
      'n', 'd', ' ']), .val (num b)]
  | .wrongBranch a b => [.lit (asc ['b', 'l', 'o', 'c', 'k', ' ', 'i', 's', ' ', 'f', 'o', 'l', 'l', 'o', 'w', 'i',
      'n', 'g', ' ', 'b', 'l', 'o', 'c', 'k', ' ', 'w', 'i', 't', 'h', ' ', 'h', 'a', 's', 'h', ' ']),
      .val (hashDisplay a), .lit (asc [',', ' ', 'e', 'x', 'p', 'e', 'c', 't', 'e', 'd', ' ', 'p', 'r', 'e', 'v', ' ',
      't', 'o', ' ', 'b', 'e', ' ']), .val (hashDisplay b)]
  | .wrongUpgradeState => [.lit (asc ['i', 'n', 'v', 'a', 'l', 'i', 'd', ' ', 'u', 'p', 'g', 'r', 'a', 'd', 'e', ' ',
      's', 't', 'a', 't', 'e'])]
  | .badEarlyTimestamp a b => [.lit (asc ['b', 'a', 'd', ' ', 't', 'i', 'm', 'e', 's', 't', 'a', 'm', 'p', ':', ' ',
      'c', 'u', 'r', 'r', 'e', 'n', 't', ' ']), .val (num a), .lit (asc [' ', '<', ' ', 'p', 'r', 'e', 'v', 'i', 'o',
      'u', 's', ' ']), .val (num b)]
  | .badLateTimestamp a b c => [.lit (asc ['b', 'a', 'd', ' ', 't', 'i', 'm', 'e', 's', 't', 'a', 'm', 'p', ':', ' ',
      'c', 'u', 'r', 'r', 'e', 'n', 't', ' ']), .val (num a), .lit (asc [' ', '>', ' ', 'p', 'r', 'e', 'v', 'i', 'o',
      'u', 's', ' ']), .val (num b), .lit (asc [' ', '+', ' ', 'm', 'a', 'x', ' ', 'i', 'n', 'c', 'r', 'e', 'm', 'e',
      'n', 't', ' ']), .val (num c)]
  | .missingGenesisId => [.lit (asc ['g', 'e', 'n', 'e', 's', 'i', 's', ' ', 'I', 'D', ' ', 'm', 'i', 's', 's', 'i',
      'n', 'g'])]
  | .genesisIdMismatch a b => [.lit (asc ['g', 'e', 'n', 'e', 's', 'i', 's', ' ', 'I', 'D', ' ', 'm', 'i', 's', 'm',
      'a', 't', 'c', 'h', ' ']), .val (a), .lit (asc [',', ' ', 'p', 'r', 'e', 'v', ' ', 'b', 'l', 'o', 'c', 'k', ' ',
      'h', 'a', 'd', ' ']), .val (b)]
  | .missingGenesisHash => [.lit (asc ['g', 'e', 'n', 'e', 's', 'i', 's', ' ', 'h', 'a', 's', 'h', ' ', 'm', 'i', 's',
      's', 'i', 'n', 'g'])]
  | .genesisHashMismatch a b => [.lit (asc ['g', 'e', 'n', 'e', 's', 'i', 's', ' ', 'h', 'a', 's', 'h', ' ', 'm', 'i',
      's', 'm', 'a', 't', 'c', 'h', ' ']), .val (hashDisplay a), .lit (asc [',', ' ', 'p', 'r', 'e', 'v', ' ', 'b',
      'l', 'o', 'c', 'k', ' ', 'h', 'a', 'd', ' ']), .val (hashDisplay b)]
  | .genesisHashNotSupported => [.lit (asc ['g', 'e', 'n', 'e', 's', 'i', 's', ' ', 'h', 'a', 's', 'h', ' ', 'n', 'o',
      't', ' ', 's', 'u', 'p', 'p', 'o', 'r', 't', 'e', 'd'])]
  | .nonEmptyGenesisId => [.lit (asc ['g', 'e', 'n', 'e', 's', 'i', 's', ' ', 'I', 'D', ' ', 'n', 'o', 't', ' ', 'e',
      'm', 'p', 't', 'y'])]
  | .nonEmptyGenesisHash => [.lit (asc ['g', 'e', 'n', 'e', 's', 'i', 's', ' ', 'h', 'a', 's', 'h', ' ', 'n', 'o',
      't', ' ', 'e', 'm', 'p', 't', 'y'])]
  | .redundantHasGenesisHash => [.lit (asc ['h', 'a', 's', '_', 'g', 'e', 'n', 'e', 's', 'i', 's', '_', 'h', 'a', 's',
      'h', ' ', 'i', 's', ' ', 'r', 'e', 'd', 'u', 'n', 'd', 'a', 'n', 't', ' ', 'b', 'e', 'c', 'a', 'u', 's', 'e',
      ' ', 'r', 'e', 'q', 'u', 'i', 'r', 'e', '_', 'g', 'e', 'n', 'e', 's', 'i', 's', '_', 'h', 'a', 's', 'h', ' ',
      'i', 's', ' ', 'a', 'l', 's', 'o', ' ', 's', 'e', 't'])]
  | .competingProposal => [.lit (asc ['n', 'e', 'w', ' ', 'p', 'r', 'o', 'p', 'o', 's', 'a', 'l', ' ', 'd', 'u', 'r',
      'i', 'n', 'g', ' ', 'e', 'x', 'i', 's', 't', 'i', 'n', 'g', ' ', 'p', 'r', 'o', 'p', 'o', 's', 'a', 'l'])]
  | .delayOutOfRange a b c => [.lit (asc ['p', 'r', 'o', 'p', 'o', 's', 'e', 'd', ' ', 'u', 'p', 'g', 'r', 'a', 'd',
      'e', ' ', 'd', 'e', 'l', 'a', 'y', ' ']), .val (num a), .lit (asc [' ', 'o', 'u', 't', ' ', 'o', 'f', ' ', 'p',
      'e', 'r', 'm', 'i', 's', 's', 'i', 'b', 'l', 'e', ' ', 'r', 'a', 'n', 'g', 'e', ' ', '[']), .val (num b),
      .lit (asc [',', ' ']), .val (num c), .lit (asc [']'])]
  | .nonZeroDelayWithoutProposal => [.lit (asc ['u', 'p', 'g', 'r', 'a', 'd', 'e', ' ', 'd', 'e', 'l', 'a', 'y', ' ',
      'n', 'o', 'n', '-', 'z', 'e', 'r', 'o', ' ', 'b', 'u', 't', ' ', 'n', 'o', 't', ' ', 'p', 'r', 'o', 'p', 'o',
      's', 'i', 'n', 'g'])]
  | .approvalNoneActive => [.lit (asc ['a', 'p', 'p', 'r', 'o', 'v', 'a', 'l', ' ', 'w', 'i', 't', 'h', 'o', 'u', 't',
      ' ', 'a', 'n', ' ', 'a', 'c', 't', 'i', 'v', 'e', ' ', 'p', 'r', 'o', 'p', 'o', 's', 'a', 'l'])]
  | .approvalAfterDeadline a _ => [.lit (asc ['a', 'p', 'p', 'r', 'o', 'v', 'a', 'l', ' ', 'a', 'f', 't', 'e', 'r',
      ' ', 'v', 'o', 't', 'e', ' ', 'd', 'e', 'a', 'd', 'l', 'i', 'n', 'e'])]

/-- `to_string()` of an `InvalidTx`. -/
def txText (e : InvalidTx) : Bytes := render (txMessage e)

/-- `source().map(|e| e.to_string())` of an `InvalidTx`. -/
def txCauseText (e : InvalidTx) : Option Bytes := (txCause e).map render

/-- `to_string()` of an `InvalidBlock`. -/
def blockText (e : InvalidBlock) : Bytes := render (blockMessage e)

end Verif.Messages
