import Verif.Model.Algokey
import Verif.Model.Block
import Verif.Model.Transaction
/-!
# The same functions in a build without overflow checks

`/repo/Cargo.toml` has no profile section, so `cargo build --release` compiles `+`, `-` and `*` on machine integers
without overflow checks: the result wraps around. Everything else that panics (division by zero, `unwrap`, indexing,
`panic!`, the explicit `checked_…` calls) is the same in both builds. This file repeats, with wrapping arithmetic, the
functions whose model elsewhere contains a checked `+`, `-` or `*` that can panic. Functions that only compare, divide,
saturate or subtract under a guard are shared.
-/

namespace Verif.Release
open Verif Verif.Consensus Verif.Balance Verif.Block Verif.Ots Verif.Tx Verif.Teal Verif.Account Verif.Multisig
open Verif.Msgpack (enc)
open Verif.Algokey (f64SqrtU64 f64OfU64 PartOutcome)

/-- `a + b` on `u64` without overflow checks. -/
def wadd64 (a b : Nat) : Nat := (a + b) % u64Lim

/-- `a - b` on `u64` without overflow checks, for `a` and `b` below `2^64`. -/
def wsub64 (a b : Nat) : Nat := if b ≤ a then a - b else a + u64Lim - b

/-- `a * b` on `u64` without overflow checks. -/
def wmul64 (a b : Nat) : Nat := (a * b) % u64Lim

/-- `a + b` on `u32` without overflow checks. -/
def wadd32 (a b : Nat) : Nat := (a + b) % u32Lim

/-- `a * b` on `u32` without overflow checks. -/
def wmul32 (a b : Nat) : Nat := (a * b) % u32Lim

/-! ## Rounds and amounts -/

/-- `Round::round_up_to_multiple_of` (units.rs lines 90-92). -/
def roundUp (self r : Nat) : Units.R Nat := do
  let c ← divU (wsub64 (wadd64 self r) 1) r
  .ok (wmul64 c r)

/-- `Add for MicroAlgos` / `Add for Round` (units.rs lines 59-61, 98-100). -/
def addAmount (a b : Nat) : Units.R Nat := .ok (wadd64 a b)

/-! ## Balances -/

/-- `AccountData::pending_rewards` (user_balance.rs lines 380-391). -/
def pendingRewards (proto : Params) (microAlgos rewardsBase rewardsLevel : Nat) : Res Unit Nat := do
  let units ← divU microAlgos proto.rewardUnit
  .ok (wmul64 units (wsub64 rewardsLevel rewardsBase))

/-- `AccountData::with_updated_rewards` (user_balance.rs lines 395-413). -/
def withUpdatedRewards (ad : Balance.Account) (proto : Params) (level : Nat) : Res Unit Balance.Account :=
  if ad.status ≠ .notParticipating then do
    let units ← divU ad.microAlgos proto.rewardUnit
    let rewards := wmul64 units (wsub64 level ad.rewardsBase)
    pure { ad with microAlgos := wadd64 ad.microAlgos rewards, rewardsBase := level,
                   rewarded := (ad.rewarded + rewards) % u64Lim }
  else pure ad

/-- `AccountData::money` (user_balance.rs lines 369-376). -/
def money (ad : Balance.Account) (proto : Params) (level : Nat) : Res Unit (Nat × Nat) := do
  let e ← withUpdatedRewards ad proto level
  pure (e.microAlgos, e.rewarded)

/-- `AccountData::normalized_online_balance` (user_balance.rs lines 493-536); the product is a `checked_mul`, whose
failure is an explicit panic. -/
def normalizedOnlineBalance (ad : Balance.Account) (proto : Params) : Res Unit Nat :=
  if ad.status ≠ .online then .ok 0
  else
    let per := wadd64 ad.rewardsBase proto.rewardUnit
    match checkedMul64 ad.microAlgos proto.rewardUnit with
    | none => .panic
    | some norm => if per = 0 then .panic else .ok (norm / per)

/-- `TealKeyValue::to_state_schema` (teal.rs lines 242-251). -/
def toStateSchema (kv : KeyValue) : Schema :=
  kv.foldl (fun s e => match e.2.tealType with
    | .bytes => { s with numByteSlice := wadd64 s.numByteSlice 1 }
    | .uint => { s with numUint := wadd64 s.numUint 1 }) ⟨0, 0⟩

/-! ## Upgrades -/

/-- First part of `apply_upgrade_vote` (block.rs lines 631-664). -/
def applyProposal (params : Params) (s : UpgradeState) (round : Nat) (vote : UpgradeVote) : UpRes UpgradeState :=
  if vote.propose ≠ s.current then
    if s.next ≠ some s.current then .err (.competingProposal, s)
    else if vote.delay > params.maxUpgradeWaitRounds ∨ vote.delay < params.minUpgradeWaitRounds then
      .err (.delayOutOfRange vote.delay params.minUpgradeWaitRounds params.maxUpgradeWaitRounds, s)
    else
      let voteBefore := wadd64 round params.upgradeVoteRounds
      let switchOn := wadd64 voteBefore (if vote.delay = 0 then params.defaultUpgradeWaitRounds else vote.delay)
      .ok { s with next := some vote.propose, approvals := 0, voteBefore := voteBefore, switchOn := switchOn }
  else if vote.delay ≠ 0 then .err (.nonZeroDelayWithoutProposal, s)
  else .ok s

/-- Second part of `apply_upgrade_vote` (block.rs lines 666-680). -/
def applyApproval (s : UpgradeState) (round : Nat) (vote : UpgradeVote) : UpRes UpgradeState :=
  if vote.approve then
    if s.next = some s.current then .err (.approvalNoneActive, s)
    else if round ≥ s.voteBefore then .err (.approvalAfterDeadline round s.voteBefore, s)
    else .ok { s with approvals := wadd64 s.approvals 1 }
  else .ok s

/-- `UpgradeState::apply_upgrade_vote` (block.rs lines 623-702). -/
def applyUpgradeVote (tbl : Protocols) (s : UpgradeState) (round : Nat) (vote : UpgradeVote) : UpRes UpgradeState := do
  let params ← Res.ofOption (lookup tbl s.current)
  let s1 ← applyProposal params s round vote
  let s2 ← applyApproval s1 round vote
  switchOver (clearFailed params s2 round) round

/-- `process_upgrade_params` (block.rs lines 706-742). -/
def processUpgradeParams (tbl : Protocols) (prevRound : Nat) (s : UpgradeState) :
    UpRes (UpgradeVote × UpgradeState) := do
  let params ← Res.ofOption (lookup tbl s.current)
  let round := wadd64 prevRound 1
  let vote ← (if round < s.voteBefore then do
      let n ← Res.ofOption s.next
      .ok { initialVote params s with approve := contains params.approvedUpgrades n }
    else .ok (initialVote params s))
  let s' ← applyUpgradeVote tbl s round vote
  .ok (vote, s')

/-- `BlockHeader::next_version_info` (block.rs lines 432-450). -/
def nextVersionInfo (round : Nat) (s : UpgradeState) : Res Unit (Option Version × Nat × Bool) :=
  if round ≥ s.voteBefore ∧ round < s.switchOn then .ok (s.next, s.switchOn, true)
  else .ok (some s.current, wadd64 round 1, true)

/-! ## Rewards -/

/-- The recomputation of the rate (block.rs lines 556-587). -/
def refreshRate (s : RewardsState) (nextRound : Nat) (proto : Params) (pool : Nat) : Res Unit RewardsState :=
  if nextRound = s.recalculationRound then do
    let newRate := (checkedAdd64 pool (maxSpentOver proto s.residue pool)).getD 0
    let rate ← divU newRate proto.rewardsRateRefreshInterval
    .ok { s with rate := rate, recalculationRound := wadd64 nextRound proto.rewardsRateRefreshInterval }
  else .ok s

/-- `RewardsState::next_state` (block.rs lines 547-619). -/
def nextState (s : RewardsState) (nextRound : Nat) (proto : Params) (pool totalUnits : Nat) : Res Unit RewardsState := do
  let n ← refreshRate s nextRound proto pool
  if totalUnits = 0 then .ok n
  else match checkedAdd64 s.rate s.residue with
    | none => .ok n
    | some total =>
      match checkedAdd64 s.level (total / totalUnits) with
      | none => .ok n
      | some level => .ok { n with level := level, residue := total % totalUnits }

/-! ## Blocks -/

/-- The timestamp chosen by `Block::new` (block.rs lines 240-250). -/
def newTimestamp (now prev maxIncrement : Nat) : Nat :=
  if prev > 0 then
    if now < prev then prev
    else if now > wadd64 prev maxIncrement then wadd64 prev maxIncrement else now
  else now

/-- `Block::new` (block.rs lines 235-274). -/
def newBlock {AD : Type} (env : Env AD) (tbl : Protocols) (now : Nat) (prev : BlockHeader) :
    Res Unit (Block AD × BlockHeader) := do
  let (vote, state) ← (match processUpgradeParams tbl prev.body.round prev.upgradeState with
    | .ok x => .ok x
    | _ => .panic)
  let prev' : BlockHeader := { prev with upgradeState := state }
  let params ← Res.ofOption (lookup tbl state.current)
  let timestamp := newTimestamp now prev'.body.timestamp params.maxTimestampIncrement
  let round := wadd64 prev'.body.round 1
  let blk : Block AD :=
    ⟨⟨⟨round, headerHash env prev', zeroHash, zeroHash, timestamp, prev'.body.genesisId, prev'.body.genesisHash,
        { RewardsState.default with feeSink := prev'.body.rewards.feeSink, rewardsPool := prev'.body.rewards.rewardsPool },
        vote, 0, none⟩, state⟩, []⟩
  let root ← (match paysetCommit env tbl blk with
    | .ok r => .ok r
    | .err _ => .ok zeroHash
    | .panic => .panic)
  .ok ({ blk with header := { blk.header with body := { blk.header.body with txRoot := root } } }, prev')

/-- The timestamp part of `pre_check` (block.rs lines 380-397). -/
def checkTimestamp (params : Params) (self prev : HeaderBody) : Res InvalidBlock Unit :=
  if prev.timestamp > 0 then
    if self.timestamp < prev.timestamp then .err (.badEarlyTimestamp self.timestamp prev.timestamp)
    else if self.timestamp > wadd64 prev.timestamp params.maxTimestampIncrement then
      .err (.badLateTimestamp self.timestamp prev.timestamp params.maxTimestampIncrement)
    else .ok ()
  else .ok ()

/-- `BlockHeader::pre_check` (block.rs lines 356-427). -/
def preCheck {AD : Type} (env : Env AD) (tbl : Protocols) (self prev : BlockHeader) :
    Res InvalidBlock Unit × BlockHeader :=
  match lookup tbl self.upgradeState.current with
  | none => (.panic, prev)
  | some params =>
    let round := wadd64 prev.body.round 1
    if round ≠ self.body.round then (.err (.wrongRound round self.body.round), prev)
    else if self.body.branch ≠ headerHash env prev then (.err (.wrongBranch self.body.branch (headerHash env prev)), prev)
    else match applyUpgradeVote tbl prev.upgradeState round self.body.upgradeVote with
      | .panic => (.panic, prev)
      | .err (e, s) => (.err e, { prev with upgradeState := s })
      | .ok s =>
        (if s ≠ self.upgradeState then .err .wrongUpgradeState
          else do
            checkTimestamp params self.body prev.body
            checkGenesis params self.body prev.body,
          { prev with upgradeState := s })

/-! ## One-time signatures -/

/-- The loop of `generate` (ots.rs lines 119-133). -/
def genLoop (S : Scheme) (E : Enc) (master : S.Sk) (eph : Nat → S.Sk) (start : Nat) : Nat → Nat → List (Ots.Subkey S)
  | _, 0 => []
  | i, n + 1 =>
    ⟨eph i, S.sign master (batchRep E (S.pub (eph i)) (wadd64 start i))⟩ :: genLoop S E master eph start (i + 1) n

/-- `OTSSecrets::generate` (ots.rs lines 115-146). -/
def generate (S : Scheme) (E : Enc) (master : S.Sk) (eph : Nat → S.Sk) (start num : Nat) : Secrets S :=
  ⟨S.pub master, start, genLoop S E master eph start 0 num, 0, [], defaultPk, zeroSig⟩

/-- `OTSSecrets::sign` (ots.rs lines 149-219); the second sum, on line 204, only chooses the log level. -/
def sign {S : Scheme} (E : Enc) (st : Secrets S) (id : Ident) (msgRep : Bytes) (fresh : S.Sk) : Res Unit OTS :=
  if wadd64 id.batch 1 = st.firstBatch ∧ id.offset ≥ st.firstOffset ∧
      id.offset - st.firstOffset < st.offsets.length then do
    let k ← Res.ofOption st.offsets[id.offset - st.firstOffset]?
    pure ⟨S.sign k.sk msgRep, S.pub k.sk, st.offsetsPk2, k.pkSig, st.offsetsPk2Sig⟩
  else if id.batch ≥ st.firstBatch ∧ id.batch - st.firstBatch < st.batches.length then do
    let k ← Res.ofOption st.batches[id.batch - st.firstBatch]?
    pure ⟨S.sign fresh msgRep, S.pub fresh, S.pub k.sk,
      S.sign k.sk (offsetRep E (S.pub fresh) id.batch id.offset), k.pkSig⟩
  else pure emptyOTS

/-- `OTSSecrets::delete_before` (ots.rs lines 223-294). The differences on lines 232 and 252 do not wrap: on the way to
the first the offset is larger, and the second is reached only with `cur.batch + 1 > first_batch` and no wrapping. -/
def deleteBefore {S : Scheme} (E : Enc) (st : Secrets S) (cur : Ident) (numKeys : Nat) (fresh : Nat → S.Sk) :
    Secrets S :=
  let b1 := wadd64 cur.batch 1
  if b1 = st.firstBatch then
    (if cur.offset > st.firstOffset then
      let jump := min (cur.offset - st.firstOffset) st.offsets.length
      { st with firstOffset := st.firstOffset + jump, offsets := st.offsets.drop jump }
    else st)
  else if b1 < st.firstBatch then st
  else
    let st := { st with offsets := [] }
    let jump := cur.batch - st.firstBatch
    if jump > st.batches.length then
      (if !st.batches.isEmpty then { st with firstBatch := cur.batch, batches := [] } else st)
    else
      let st := { st with firstBatch := st.firstBatch + jump, batches := st.batches.drop jump }
      match st.batches with
      | [] => st
      | k :: rest =>
        { st with
          offsetsPk2 := S.pub k.sk
          offsetsPk2Sig := k.pkSig
          firstOffset := cur.offset
          offsets := expand E k.sk cur.batch fresh cur.offset (numKeys - cur.offset)
          firstBatch := wadd64 st.firstBatch 1
          batches := rest }

/-! ## Transactions -/

/-- `KeyregFields::check_coherency` (keyreg.rs lines 21-54). -/
def checkCoherency (f : Keyreg) (h : Tx.Header) : Res InvalidTx Unit :=
  if f.voteFirst > f.voteLast then .err .keyregFirstVotingRoundGreaterThanLast
  else if ¬ ((f.votePk = Ots.defaultPk ∧ f.selectionPk = defaultVrfPk ∧ f.voteKeyDilution = 0) ∨
      (f.votePk ≠ Ots.defaultPk ∧ f.selectionPk ≠ defaultVrfPk ∧ f.voteKeyDilution ≠ 0)) then
    .err .keyregNonCoherentVotingKeys
  else if f.voteKeyDilution = 0 then
    if f.voteFirst ≠ 0 ∨ f.voteLast ≠ 0 then .err .keyregOfflineTransactionHasVotingRounds else .ok ()
  else if f.voteLast = 0 then .err .keyregGoingOnlineWithZeroVoteLast
  else if f.voteFirst > wadd64 h.lastValid 1 then .err .keyregGoingOnlineWithFirstVoteAfterLastValid
  else .ok ()

/-- The key registration arm of `is_well_formed` (transaction.rs lines 241-260). -/
def checkKeyreg (f : Keyreg) (h : Tx.Header) (proto : Params) : Res InvalidTx Unit :=
  if proto.enableKeyregCoherencyCheck then do
    checkCoherency f h
    checkNonParticipation f proto
  else checkNonParticipation f proto

/-- The program length checks of the application arm (transaction.rs lines 358-388). -/
def checkPrograms (f : AppCall) (proto : Params) (effectiveEpp : Nat) : Res InvalidTx Unit :=
  let pages := wadd32 1 effectiveEpp
  let lim := wmul32 pages proto.maxAppProgramLen
  if f.approvalProgram.length > lim then .err (.approvalProgramTooLong f.approvalProgram.length lim)
  else if f.clearStateProgram.length > lim then .err (.clearStateProgramTooLong f.clearStateProgram.length lim)
  else
    let total := wmul32 pages proto.maxAppTotalProgramLen
    if f.approvalProgram.length + f.clearStateProgram.length > total then
      .err (.appProgramsTooLong (f.approvalProgram.length + f.clearStateProgram.length) lim)
    else if f.localStateSchema.numEntries > proto.maxLocalSchemaEntries then
      .err (.localStateSchemaTooLarge f.localStateSchema.numEntries proto.maxLocalSchemaEntries)
    else if f.globalStateSchema.numEntries > proto.maxGlobalSchemaEntries then
      .err (.globalStateSchemaTooLarge f.globalStateSchema.numEntries proto.maxGlobalSchemaEntries)
    else .ok ()

/-- The application arm of `is_well_formed` (transaction.rs lines 266-389). -/
def checkAppCall (f : AppCall) (proto : Params) : Res InvalidTx Unit :=
  if ¬ proto.application then .err .appTxsNotSupported
  else if f.applicationId ≠ 0 ∧ f.onCompletion ≠ .updateApplication ∧
      (f.approvalProgram ≠ [] ∨ f.clearStateProgram ≠ []) then .err .changeProgramWithoutUpdate
  else if f.applicationId ≠ 0 ∧ (f.localStateSchema ≠ Schema.default ∨ f.globalStateSchema ≠ Schema.default) then
    .err .changeAppStateSchema
  else if f.applicationId ≠ 0 ∧ f.extraProgramPages ≠ 0 then .err .changeExtraProgramPages
  else if f.applicationArgs.length > proto.maxAppArgs then .err (.tooManyAppArgs f.applicationArgs.length proto.maxAppArgs)
  else if argSum f.applicationArgs > proto.maxAppTotalArgLen then
    .err (.appArgsTotalTooLong (argSum f.applicationArgs) proto.maxAppTotalArgLen)
  else if f.accounts.length > proto.maxAppTxAccounts then .err (.accountsTooLong f.accounts.length proto.maxAppTxAccounts)
  else if f.foreignApps.length > proto.maxAppTxForeignApps then
    .err (.foreignAppTooLong f.foreignApps.length proto.maxAppTxForeignApps)
  else if f.foreignAssets.length > proto.maxAppTxForeignAssets then
    .err (.foreignAssetsTooLong f.foreignAssets.length proto.maxAppTxForeignAssets)
  else if f.accounts.length + f.foreignApps.length + f.foreignAssets.length > proto.maxAppTotalTxReferences then
    .err (.tooManyReferences (f.accounts.length + f.foreignApps.length + f.foreignAssets.length)
      proto.maxAppTotalTxReferences)
  else if f.extraProgramPages > proto.maxExtraAppProgramPages then
    .err (.tooManyExtraProgramPages f.extraProgramPages proto.maxExtraAppProgramPages)
  else checkPrograms f proto
    (if f.applicationId ≠ 0 ∧ proto.enableExtraPagesOnAppUpdate then proto.maxExtraAppProgramPages
      else f.extraProgramPages)

/-- The first match of `is_well_formed` (transaction.rs lines 236-412). -/
def checkFields (ccSender : Bytes) (tx : Transaction) (spec : SpecialAddresses) (proto : Params) : Res InvalidTx Unit :=
  match tx.fields with
  | .payment f => checkSpender f tx.header spec
  | .keyreg f => checkKeyreg f tx.header proto
  | .assetConfig _ => if ¬ proto.asset then .err .assetTxsNotSupported else .ok ()
  | .assetTransfer _ => if ¬ proto.asset then .err .assetTxsNotSupported else .ok ()
  | .assetFreeze _ => if ¬ proto.asset then .err .assetTxsNotSupported else .ok ()
  | .appCall f => checkAppCall f proto
  | .compactCert _ => checkCompactCert ccSender tx.header proto

/-- `Transaction::is_well_formed` (transaction.rs lines 231-517). -/
def isWellFormed (ccSender : Bytes) (tx : Transaction) (spec : SpecialAddresses) (proto : Params) :
    Res InvalidTx Unit := do
  checkFields ccSender tx spec proto
  checkCommon tx proto
  checkAsset tx proto
  checkSender tx spec proto

/-- The loop of `fee_credit` (signed_tx.rs lines 109-116). -/
def feeLoop : List SignedTx → Nat → Nat → Nat × Nat
  | [], count, paid => (count, paid)
  | s :: rest, count, paid =>
    feeLoop rest (if s.tx.fields.isCompactCert then wadd64 count 1 else count) (satAdd64 paid s.tx.header.fee)

/-- `fee_credit` (signed_tx.rs lines 108-134). -/
def feeCredit (group : List SignedTx) (minFee : Nat) : Res Unit Nat :=
  match checkedMul64 minFee (feeLoop group 0 0).1 with
  | none => .err ()
  | some needed => if (feeLoop group 0 0).2 < needed then .err () else .ok ((feeLoop group 0 0).2 - needed)

/-- `AppCallFields::index_by_address` (application.rs lines 188-204). -/
def indexByAddress (f : AppCall) (target sender : Bytes) : Res Unit Nat :=
  if target = sender then .ok 0
  else match position target f.accounts with
    | some i => .ok (wadd64 i 1)
    | none => .err ()

/-- `AppCallFields::index_by_app_id` (application.rs lines 225-237). -/
def indexByAppId (f : AppCall) (app : Nat) : Res Unit Nat :=
  if app = f.applicationId then .ok 0
  else match position app f.foreignApps with
    | some i => .ok (wadd64 i 1)
    | none => .err ()

/-! ## Participation keys -/

/-- `delete_old_keys` (data/account.rs lines 205-222). -/
def deleteOldKeys {S : Scheme} (E : Enc) (K : Keys S) (p : Participation S) (current defaultDilution : Nat)
    (fresh : Nat → S.Sk) : Res Unit (Participation S × List (Name × Bytes)) := do
  let dilution := if p.keyDilution = 0 then defaultDilution else p.keyDilution
  let id ← roundId current dilution
  let voting := deleteBefore E p.voting id dilution fresh
  .ok ({ p with voting := voting }, [(.voting, enc (secretsMP K (snapshot voting)))])

/-- `fill_db_with_participation_keys` (data/account.rs lines 232-269). -/
def fillDb {G : Type} {S : Scheme} (E : Enc) (K : Keys S) (C : Vrf.Curve G) [AddCommGroup G] (master : S.Sk)
    (eph : Nat → S.Sk) (seed parent : Bytes) (first last keyDilution : Nat) :
    Res AccountError (Participation S × List (Name × Bytes)) :=
  if last < first then .err (.invalidRoundInterval first last)
  else do
    let firstId ← roundId first keyDilution
    let lastId ← roundId last keyDilution
    let num := wadd64 (wsub64 lastId.batch firstId.batch) 1
    let p : Participation S := ⟨parent, Vrf.fromSeed C seed, generate S E master eph firstId.batch num, first, last,
      keyDilution⟩
    .ok (p, persist K p)

/-- The round before which an account's keys are deleted (account_manager.rs lines 110-132). -/
def nextRound (header : Block.HeaderBody) (ccSigs : Bytes → Option Nat) (certRounds : Nat) (parent : Bytes) :
    Res Unit Nat := do
  let next := wadd64 header.round 1
  let cert ← Res.ofOption header.compactCerts
  if cert.nextRound > 0 then do
    let cc := wadd64 cert.nextRound 1
    let signed ← Res.ofOption (ccSigs parent)
    let cc := if signed ≥ cc then wadd64 signed (wadd64 certRounds 1) else cc
    .ok (if cc < next then cc else next)
  else .ok next

/-- The loop of `delete_old_keys` (account_manager.rs lines 109-147). -/
def deleteLoop {S : Scheme} (E : Enc) (K : Keys S) (header : Block.HeaderBody) (ccSigs : Bytes → Option Nat)
    (certRounds defaultDilution : Nat) (fresh : Identity → Nat → S.Sk) :
    List (Identity × Participation S) → Res Unit (List (Identity × Participation S) × List (Name × Bytes))
  | [] => .ok ([], [])
  | (id, p) :: l => do
    let next ← nextRound header ccSigs certRounds p.parent
    let (p', w) ← deleteOldKeys E K p next defaultDilution (fresh id)
    let (l', w') ← deleteLoop E K header ccSigs certRounds defaultDilution fresh l
    .ok ((id, p') :: l', w ++ w')

/-- `AccountManager::delete_old_keys` (account_manager.rs lines 100-148). -/
def managerDeleteOldKeys {S : Scheme} (E : Enc) (K : Keys S) (tbl : Protocols) (m : Manager S)
    (header : Block.BlockHeader) (ccSigs : Bytes → Option Nat) (defaultDilution : Nat) (fresh : Identity → Nat → S.Sk)
    (order : List (Identity × Participation S) → List (Identity × Participation S)) :
    Res Unit (Manager S × List (Name × Bytes)) := do
  let latest ← Res.ofOption (lookup tbl header.upgradeState.current)
  let (l, w) ← deleteLoop E K header.body ccSigs latest.compactCertRounds defaultDilution fresh (order m.partKeys)
  .ok (⟨l⟩, w)

/-- The dilution used by `algokey part generate` (part.rs lines 80-83). -/
def dilutionOf (dilution first last : Nat) : Res Unit Nat :=
  if dilution = 0 then .ok (wadd64 1 (f64SqrtU64 (f64OfU64 (wsub64 last first))))
  else .ok dilution

/-- `PartGenerateCmd::entrypoint` (part.rs lines 79-99). -/
def partGenerate {G : Type} [AddCommGroup G] {S : Scheme} (hash : Bytes → Bytes) (E : Enc) (K : Keys S)
    (C : Vrf.Curve G) (master : S.Sk) (eph : Nat → S.Sk) (seed : Bytes) (first last dilution : Nat) (parent : Bytes)
    (s : Store) : PartOutcome :=
  match dilutionOf dilution first last with
  | .ok d =>
    match Address.fromStr hash parent with
    | .ok a =>
      match fillDb E K C master eph seed a first last d with
      | .ok (p, w) => ⟨s.inserts w, some (Algokey.info p), .done⟩
      | .err _ => ⟨s, none, .failed⟩
      | .panic => ⟨s, none, .panicked⟩
    | _ => ⟨s, none, .panicked⟩
  | _ => ⟨s, none, .panicked⟩

end Verif.Release
