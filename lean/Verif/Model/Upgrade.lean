import Verif.Model.Consensus
/-!
# Model of the protocol upgrade machine in `src/data/bookkeeping/block.rs`

`config::CONSENSUS` is the parameter `tbl`. A failing call also reports the state that the `&mut self` receiver is left
in.
-/

namespace Verif.Block
open Verif Verif.Consensus

/-- `InvalidBlock` (errors.rs lines 10-61) with the values that the messages show; variants that nothing returns are left
out. -/
inductive InvalidBlock where
  | wrongRound (a b : Nat)
  | wrongBranch (a b : Bytes)
  | wrongUpgradeState
  | badEarlyTimestamp (a b : Nat)
  | badLateTimestamp (a b c : Nat)
  | missingGenesisId
  | genesisIdMismatch (a b : Bytes)
  | missingGenesisHash
  | genesisHashMismatch (a b : Bytes)
  | genesisHashNotSupported
  | nonEmptyGenesisId
  | nonEmptyGenesisHash
  | redundantHasGenesisHash
  | competingProposal
  | delayOutOfRange (a b c : Nat)
  | nonZeroDelayWithoutProposal
  | approvalNoneActive
  | approvalAfterDeadline (a b : Nat)
  deriving Repr, DecidableEq

/-- `UpgradeVote` (block.rs lines 141-151). -/
structure UpgradeVote where
  propose : Version
  delay : Nat
  approve : Bool
  deriving Repr, DecidableEq

/-- `UpgradeVote::default()`; `ConsensusVersion::default()` is `V30` (protocol/consensus.rs lines 14, 127-131). -/
def UpgradeVote.default : UpgradeVote := ⟨.v30, 0, false⟩

/-- `UpgradeState` (block.rs lines 157-169). -/
structure UpgradeState where
  current : Version
  next : Option Version
  approvals : Nat
  voteBefore : Nat
  switchOn : Nat
  deriving Repr, DecidableEq

/-- `UpgradeState::default()`. -/
def UpgradeState.default : UpgradeState := ⟨.v30, none, 0, 0, 0⟩

/-- Result of a call that changes an upgrade state in place: an error comes with the state left behind. -/
abbrev UpRes := Res (InvalidBlock × UpgradeState)

/-- First part of `apply_upgrade_vote` (block.rs lines 631-664): a proposal. -/
def applyProposal (params : Params) (s : UpgradeState) (round : Nat) (vote : UpgradeVote) : UpRes UpgradeState :=
  if vote.propose ≠ s.current then
    if s.next ≠ some s.current then .err (.competingProposal, s)
    else if vote.delay > params.maxUpgradeWaitRounds ∨ vote.delay < params.minUpgradeWaitRounds then
      .err (.delayOutOfRange vote.delay params.minUpgradeWaitRounds params.maxUpgradeWaitRounds, s)
    else do
      let voteBefore ← addU64 round params.upgradeVoteRounds
      let switchOn ← addU64 voteBefore (if vote.delay = 0 then params.defaultUpgradeWaitRounds else vote.delay)
      .ok { s with next := some vote.propose, approvals := 0, voteBefore := voteBefore, switchOn := switchOn }
  else if vote.delay ≠ 0 then .err (.nonZeroDelayWithoutProposal, s)
  else .ok s

/-- Second part of `apply_upgrade_vote` (block.rs lines 666-680): an approval. -/
def applyApproval (s : UpgradeState) (round : Nat) (vote : UpgradeVote) : UpRes UpgradeState :=
  if vote.approve then
    if s.next = some s.current then .err (.approvalNoneActive, s)
    else if round ≥ s.voteBefore then .err (.approvalAfterDeadline round s.voteBefore, s)
    else do
      let a ← addU64 s.approvals 1
      .ok { s with approvals := a }
  else .ok s

/-- Third part of `apply_upgrade_vote` (block.rs lines 682-690): clear out a failed proposal. -/
def clearFailed (params : Params) (s : UpgradeState) (round : Nat) : UpgradeState :=
  if round = s.voteBefore ∧ s.approvals < params.upgradeThreshold then
    { s with next := none, approvals := 0, voteBefore := 0, switchOn := 0 }
  else s

/-- Fourth part of `apply_upgrade_vote` (block.rs lines 692-699): switch over. -/
def switchOver (s : UpgradeState) (round : Nat) : UpRes UpgradeState :=
  if round = s.switchOn then do
    let n ← Res.ofOption s.next
    .ok ⟨n, none, 0, 0, 0⟩
  else .ok s

/-- `UpgradeState::apply_upgrade_vote` (block.rs lines 623-702). On success the receiver holds the returned state. -/
def applyUpgradeVote (tbl : Protocols) (s : UpgradeState) (round : Nat) (vote : UpgradeVote) : UpRes UpgradeState := do
  let params ← Res.ofOption (lookup tbl s.current)
  let s1 ← applyProposal params s round vote
  let s2 ← applyApproval s1 round vote
  switchOver (clearFailed params s2 round) round

/-- The choice of the vote in `process_upgrade_params` (block.rs lines 713-728), before looking at a proposal being voted
on. The first entry of the map of approved upgrades is the head of the list. -/
def initialVote (params : Params) (s : UpgradeState) : UpgradeVote :=
  if s.next.isNone then
    match params.approvedUpgrades with
    | (k, v) :: _ => ⟨k, v, true⟩
    | [] => UpgradeVote.default
  else UpgradeVote.default

/-- `process_upgrade_params` (block.rs lines 706-742) for a parent of round `prevRound` and upgrade state `s`. -/
def processUpgradeParams (tbl : Protocols) (prevRound : Nat) (s : UpgradeState) : UpRes (UpgradeVote × UpgradeState) := do
  let params ← Res.ofOption (lookup tbl s.current)
  let round ← addU64 prevRound 1
  let vote ← (if round < s.voteBefore then do
      let n ← Res.ofOption s.next
      .ok { initialVote params s with approve := contains params.approvedUpgrades n }
    else .ok (initialVote params s))
  let s' ← applyUpgradeVote tbl s round vote
  .ok (vote, s')

/-- `BlockHeader::next_version_info` (block.rs lines 432-450); the third component is always `true`. -/
def nextVersionInfo (round : Nat) (s : UpgradeState) : Res Unit (Option Version × Nat × Bool) :=
  if round ≥ s.voteBefore ∧ round < s.switchOn then .ok (s.next, s.switchOn, true)
  else do
    let r ← addU64 round 1
    .ok (some s.current, r, true)

end Verif.Block
