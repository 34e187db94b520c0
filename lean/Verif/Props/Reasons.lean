import Verif.Model.Block
import Verif.Props.Transaction
import Verif.Props.Block
/-!
# C145, C146: why transactions and headers are refused

The specifications below say what each error of `InvalidTx` and `InvalidBlock` means according to its name and message:
which rule was broken, and that the values in the error are the ones the message calls them.
-/

namespace Verif.Props
open Verif Verif.Tx Verif.Consensus Verif.Block Verif.Teal

/-! ## Transactions -/

/-- What an error of `alive` says about a transaction header in a context. -/
def AliveReason (h : Tx.Header) (tc : TxContext) : InvalidTx → Prop
  | .dead round first last => round = tc.round ∧ first = h.firstValid ∧ last = h.lastValid ∧ (round < first ∨ last < round)
  | .genesisIdMismatch given expected => given = h.genesisId ∧ expected = tc.genesisId ∧ given ≠ expected
  | .genesisHashMismatch given expected => given = h.genesisHash ∧ expected = tc.genesisHash ∧ given ≠ expected
  | .genesisHashMissing => h.genesisHash = zero32 ∧ tc.proto.requireGenesisHash = true
  | .genesisHashNotAllowed => h.genesisHash ≠ zero32 ∧ tc.proto.supportGenesisHash = false
  | _ => False

/-- C145 for `alive`: every refusal names a rule that is broken, with the values that break it. -/
theorem C145_alive (h : Tx.Header) (tc : TxContext) (e : InvalidTx) (he : alive h tc = .err e) : AliveReason h tc e := by
  rw [alive] at he
  by_cases h1 : tc.round < h.firstValid ∨ tc.round > h.lastValid
  · rw [if_pos h1] at he
    cases he
    exact ⟨rfl, rfl, rfl, h1⟩
  rw [if_neg h1] at he
  by_cases h2 : h.genesisId ≠ [] ∧ h.genesisId ≠ tc.genesisId
  · rw [if_pos h2] at he
    cases he
    exact ⟨rfl, rfl, h2.2⟩
  rw [if_neg h2] at he
  by_cases h3 : tc.proto.supportGenesisHash = true
  · rw [if_pos h3] at he
    by_cases h4 : h.genesisHash ≠ zero32 ∧ h.genesisHash ≠ tc.genesisHash
    · rw [if_pos h4] at he
      cases he
      exact ⟨rfl, rfl, h4.2⟩
    rw [if_neg h4] at he
    by_cases h5 : tc.proto.requireGenesisHash = true ∧ h.genesisHash = zero32
    · rw [if_pos h5] at he
      cases he
      exact ⟨h5.2, h5.1⟩
    · rw [if_neg h5] at he
      cases he
  · rw [if_neg h3] at he
    by_cases h4 : h.genesisHash ≠ zero32
    · rw [if_pos h4] at he
      cases he
      exact ⟨h4, by simpa using h3⟩
    · rw [if_neg h4] at he
      cases he

example : alive toyTxHeader { toyContext 20 with genesisId := [1] } = .err (.genesisIdMismatch [109] [1]) := by decide

/-- Both keys and the dilution, as the coherency rule sees them: which of the three are set. -/
def keysSet (f : Keyreg) : List Bool :=
  [decide (f.votePk ≠ noVoteKey), decide (f.selectionPk ≠ zero32), decide (f.voteKeyDilution ≠ 0)]

/-- The rules for key registrations, by error. -/
def KeyregReason (f : Keyreg) (lastValid : Nat) (p : Params) : InvalidTx → Prop
  | .keyregFirstVotingRoundGreaterThanLast => p.enableKeyregCoherencyCheck = true ∧ f.voteLast < f.voteFirst
  | .keyregNonCoherentVotingKeys => p.enableKeyregCoherencyCheck = true ∧ true ∈ keysSet f ∧ false ∈ keysSet f
  | .keyregOfflineTransactionHasVotingRounds =>
      p.enableKeyregCoherencyCheck = true ∧ true ∉ keysSet f ∧ (f.voteFirst ≠ 0 ∨ f.voteLast ≠ 0)
  | .keyregGoingOnlineWithZeroVoteLast => p.enableKeyregCoherencyCheck = true ∧ false ∉ keysSet f ∧ f.voteLast = 0
  | .keyregGoingOnlineWithFirstVoteAfterLastValid =>
      p.enableKeyregCoherencyCheck = true ∧ false ∉ keysSet f ∧ lastValid + 1 < f.voteFirst
  | .keyregUnsupportedSwitchToNonParticipating =>
      f.nonparticipation = true ∧ p.supportBecomeNonParticipatingTransactions = false
  | .keyregGoingOnlineWithNonParticipating =>
      f.nonparticipation = true ∧ f.votePk ≠ noVoteKey ∧ f.selectionPk ≠ zero32
  | _ => False

/-- A count that stops at the largest 64-bit number. -/
def capped (n : Nat) : Nat := min n (2 ^ 64 - 1)

/-- The rules for application calls, by error. -/
def AppReason (f : AppCall) (p : Params) : InvalidTx → Prop
  | .appTxsNotSupported => p.application = false
  | .changeProgramWithoutUpdate => f.applicationId ≠ 0 ∧ f.onCompletion ≠ .updateApplication ∧
      (f.approvalProgram ≠ [] ∨ f.clearStateProgram ≠ [])
  | .changeAppStateSchema => f.applicationId ≠ 0 ∧ (f.localStateSchema ≠ ⟨0, 0⟩ ∨ f.globalStateSchema ≠ ⟨0, 0⟩)
  | .changeExtraProgramPages => f.applicationId ≠ 0 ∧ f.extraProgramPages ≠ 0
  | .tooManyAppArgs n max => n = f.applicationArgs.length ∧ max = p.maxAppArgs ∧ max < n
  | .appArgsTotalTooLong n max =>
      n = capped (f.applicationArgs.map List.length).sum ∧ max = p.maxAppTotalArgLen ∧ max < n
  | .accountsTooLong n max => n = f.accounts.length ∧ max = p.maxAppTxAccounts ∧ max < n
  | .foreignAppTooLong n max => n = f.foreignApps.length ∧ max = p.maxAppTxForeignApps ∧ max < n
  | .foreignAssetsTooLong n max => n = f.foreignAssets.length ∧ max = p.maxAppTxForeignAssets ∧ max < n
  | .tooManyReferences n max =>
      n = f.accounts.length + f.foreignApps.length + f.foreignAssets.length ∧ max = p.maxAppTotalTxReferences ∧ max < n
  | .tooManyExtraProgramPages n max => n = f.extraProgramPages ∧ max = p.maxExtraAppProgramPages ∧ max < n
  | .approvalProgramTooLong n max =>
      n = f.approvalProgram.length ∧ max = pagesOf f p * p.maxAppProgramLen ∧ max < n
  | .clearStateProgramTooLong n max =>
      n = f.clearStateProgram.length ∧ max = pagesOf f p * p.maxAppProgramLen ∧ max < n
  | .appProgramsTooLong n max =>
      n = f.approvalProgram.length + f.clearStateProgram.length ∧ max = pagesOf f p * p.maxAppTotalProgramLen ∧ max < n
  | .localStateSchemaTooLarge n max =>
      n = capped (f.localStateSchema.numUint + f.localStateSchema.numByteSlice) ∧ max = p.maxLocalSchemaEntries ∧ max < n
  | .globalStateSchemaTooLarge n max =>
      n = capped (f.globalStateSchema.numUint + f.globalStateSchema.numByteSlice) ∧ max = p.maxGlobalSchemaEntries ∧ max < n
  | _ => False

/-- The rules that depend on the type of the transaction, by error. -/
def TypeReason (cc : Bytes) (h : Tx.Header) (spec : SpecialAddresses) (p : Params) : Fields → InvalidTx → Prop
  | .payment f, .cannotCloseToSender => f.closeRemainderTo = some h.sender
  | .payment f, .cannotSpendFromFeeSink => h.sender = spec.feeSink ∧ f.receiver ≠ spec.rewardsPool
  | .payment f, .cannotCloseFeeSink => h.sender = spec.feeSink ∧ f.closeRemainderTo ≠ none
  | .keyreg f, e => KeyregReason f h.lastValid p e
  | .assetConfig _, .assetTxsNotSupported => p.asset = false
  | .assetTransfer _, .assetTxsNotSupported => p.asset = false
  | .assetFreeze _, .assetTxsNotSupported => p.asset = false
  | .assetConfig f, .assetNameTooBig n max =>
      n = f.assetParams.assetName.length ∧ max = p.maxAssetNameBytes ∧ max < n
  | .assetConfig f, .assetUnitNameTooBig n max =>
      n = f.assetParams.unitName.length ∧ max = p.maxAssetUnitNameBytes ∧ max < n
  | .assetConfig f, .assetUrlTooBig n max => n = f.assetParams.url.length ∧ max = p.maxAssetUrlBytes ∧ max < n
  | .assetConfig f, .assetDecimalsTooHigh n max => n = f.assetParams.decimals ∧ max = p.maxAssetDecimals ∧ max < n
  | .appCall f, e => AppReason f p e
  | .compactCert _, .compactcertTxsNotSupported => p.compactCertRounds = 0
  | .compactCert _, .ccInvalidSender => h.sender ≠ cc
  | .compactCert _, .ccNonZeroFee => h.fee ≠ 0
  | .compactCert _, .ccNonEmptyNote => h.note ≠ []
  | .compactCert _, .ccNonZeroGroup => h.group ≠ zero32
  | .compactCert _, .ccNonZeroRekey => h.rekeyTo ≠ zero32
  | .compactCert _, .ccNonZeroLease => h.lease ≠ zero32
  | _, _ => False

/-- What an error of `is_well_formed` says about a transaction. -/
def TxReason (cc : Bytes) (tx : Transaction) (spec : SpecialAddresses) (p : Params) : InvalidTx → Prop
  | .feeLessThanMin fee min =>
      fee = tx.header.fee ∧ min = p.minTxFee ∧ fee < min ∧ p.enableFeePooling = false ∧ ¬ IsCert tx
  | .badValidityRange first last => first = tx.header.firstValid ∧ last = tx.header.lastValid ∧ last < first
  | .excessiveValidityRange first last =>
      first = tx.header.firstValid ∧ last = tx.header.lastValid ∧ first + p.maxTxLife < last
  | .noteTooBig n max => n = tx.header.note.length ∧ max = p.maxTxNoteBytes ∧ max < n
  | .zeroSender => tx.header.sender = zero32
  | .leasesNotSupported => tx.header.lease ≠ zero32 ∧ p.supportTransactionLeases = false
  | .groupsNotSupported => tx.header.group ≠ zero32 ∧ p.supportTxGroups = false
  | .rekeyingNotSupported => tx.header.rekeyTo ≠ zero32 ∧ p.supportRekeying = false
  | e => TypeReason cc tx.header spec p tx.fields e

theorem ite_err_err {ε α : Type} {c : Prop} [Decidable c] {e e' : ε} {r : Res ε α} :
    (if c then .err e else r) = .err e' ↔ (c ∧ e = e') ∨ (¬ c ∧ r = .err e') := by
  by_cases h : c <;> simp [h]

theorem unit_bind_err {ε : Type} {r s : Res ε Unit} {e : ε} :
    (do r; s) = .err e ↔ r = .err e ∨ (r = .ok () ∧ s = .err e) := by
  cases r <;> simp

theorem numEntries_capped (s : Schema) : s.numEntries = capped (s.numUint + s.numByteSlice) := by
  simp only [Schema.numEntries, satAdd64, u64Lim, capped]
  omega

theorem checkKeyreg_reason (f : Keyreg) (h : Tx.Header) (p : Params) (e : InvalidTx)
    (he : checkKeyreg f h p = .err e) : KeyregReason f h.lastValid p e := by
  have hn : ∀ e, checkNonParticipation f p = .err e → KeyregReason f h.lastValid p e := by
    intro e he
    rw [checkNonParticipation, defaultPk_noVoteKey] at he
    by_cases h1 : f.nonparticipation = true
    · rw [if_pos h1, ite_err_err, ite_err_err] at he
      rcases he with ⟨h2, rfl⟩ | ⟨_, ⟨h3, rfl⟩ | ⟨_, h4⟩⟩
      · exact ⟨h1, by simpa using h2⟩
      · simp only [not_or] at h3
        exact ⟨h1, h3.1, h3.2⟩
      · cases h4
    · rw [if_neg h1] at he
      cases he
  rw [checkKeyreg] at he
  by_cases hc : p.enableKeyregCoherencyCheck = true
  swap
  · rw [if_neg hc] at he
    exact hn e he
  rw [if_pos hc, unit_bind_err] at he
  rcases he with he | ⟨_, he⟩
  swap
  · exact hn e he
  rw [checkCoherency, defaultPk_noVoteKey, ite_err_err, ite_err_err] at he
  have hkeys : (true ∈ keysSet f ↔ f.votePk ≠ noVoteKey ∨ f.selectionPk ≠ zero32 ∨ f.voteKeyDilution ≠ 0) ∧
      (false ∈ keysSet f ↔ f.votePk = noVoteKey ∨ f.selectionPk = zero32 ∨ f.voteKeyDilution = 0) := by
    constructor
    · simp only [keysSet, List.mem_cons, List.not_mem_nil, or_false, eq_comm (a := true), decide_eq_true_eq]
    · simp only [keysSet, List.mem_cons, List.not_mem_nil, or_false, eq_comm (a := false), decide_eq_false_iff_not, not_not]
  rcases he with ⟨h1, rfl⟩ | ⟨_, ⟨h2, rfl⟩ | ⟨h2, he⟩⟩
  · exact ⟨hc, h1⟩
  · refine ⟨hc, hkeys.1.2 ?_, hkeys.2.2 ?_⟩
    · by_contra hcon
      simp only [not_or, not_not, ne_eq] at hcon
      exact h2 (Or.inl hcon)
    · by_contra hcon
      simp only [not_or] at hcon
      exact h2 (Or.inr hcon)
  · rw [not_not] at h2
    by_cases hd : f.voteKeyDilution = 0
    · rw [if_pos hd, ite_err_err] at he
      rcases he with ⟨h3, rfl⟩ | ⟨_, h3⟩
      · refine ⟨hc, ?_, h3⟩
        rw [hkeys.1]
        rcases h2 with h2 | h2
        · simp only [ne_eq, not_or, not_not]; exact h2
        · exact absurd hd h2.2.2
      · cases h3
    · have hall : false ∉ keysSet f := by
        rw [hkeys.2]
        rcases h2 with h2 | h2
        · exact absurd h2.2.2 hd
        · simp only [not_or]; exact h2
      rw [if_neg hd, ite_err_err] at he
      rcases he with ⟨h3, rfl⟩ | ⟨_, he⟩
      · exact ⟨hc, hall, h3⟩
      · rw [addU64] at he
        split at he
        · rw [Res.ok_bind, ite_err_err] at he
          rcases he with ⟨h4, rfl⟩ | ⟨_, h4⟩
          · exact ⟨hc, hall, h4⟩
          · cases h4
        · simp at he

theorem checkPrograms_reason (f : AppCall) (p : Params) (e : InvalidTx) (hex : ∀ a b, e ≠ .appProgramsTooLong a b)
    (epp : Nat) (hepp : pagesOf f p = 1 + epp) (he : checkPrograms f p epp = .err e) : AppReason f p e := by
  rw [checkPrograms, addU32] at he
  split at he
  swap
  · simp at he
  rw [Res.ok_bind, mulU32] at he
  split at he
  swap
  · simp at he
  rw [Res.ok_bind, ite_err_err, ite_err_err] at he
  rcases he with ⟨h, rfl⟩ | ⟨_, ⟨h, rfl⟩ | ⟨_, he⟩⟩
  · exact ⟨rfl, by rw [hepp], h⟩
  · exact ⟨rfl, by rw [hepp], h⟩
  rw [mulU32] at he
  split at he
  swap
  · simp at he
  rw [Res.ok_bind] at he
  simp only [ite_err_err] at he
  rcases he with ⟨h, rfl⟩ | ⟨_, ⟨h, rfl⟩ | ⟨_, ⟨h, rfl⟩ | ⟨_, he⟩⟩⟩
  · exact absurd rfl (hex _ _)
  · exact ⟨numEntries_capped _, rfl, h⟩
  · exact ⟨numEntries_capped _, rfl, h⟩
  · cases he

theorem checkAppCall_reason (f : AppCall) (p : Params) (e : InvalidTx) (hex : ∀ a b, e ≠ .appProgramsTooLong a b)
    (he : checkAppCall f p = .err e) : AppReason f p e := by
  rw [checkAppCall] at he
  simp only [ite_err_err] at he
  rcases he with ⟨h, rfl⟩ | ⟨_, ⟨h, rfl⟩ | ⟨_, ⟨h, rfl⟩ | ⟨_, ⟨h, rfl⟩ | ⟨_, ⟨h, rfl⟩ | ⟨_, ⟨h, rfl⟩ | ⟨_, ⟨h, rfl⟩ |
    ⟨_, ⟨h, rfl⟩ | ⟨_, ⟨h, rfl⟩ | ⟨_, ⟨h, rfl⟩ | ⟨_, ⟨h, rfl⟩ | ⟨_, he⟩⟩⟩⟩⟩⟩⟩⟩⟩⟩⟩
  · show p.application = false
    simpa using h
  · exact h
  · exact h
  · exact h
  · exact ⟨rfl, rfl, h⟩
  · exact ⟨argSum_eq _, rfl, h⟩
  · exact ⟨rfl, rfl, h⟩
  · exact ⟨rfl, rfl, h⟩
  · exact ⟨rfl, rfl, h⟩
  · exact ⟨rfl, rfl, h⟩
  · exact ⟨rfl, rfl, h⟩
  · exact checkPrograms_reason f p e hex _ rfl he

/-- What holds of C145 for `is_well_formed`: every refusal except two names a rule that is broken, with the values that
break it. Missing: a fee equal to the minimum is called less than it, and programs that are too long together are
reported with the limit for one program. -/
theorem C145_reason_partial (cc : Bytes) (tx : Transaction) (spec : SpecialAddresses) (p : Params) (e : InvalidTx)
    (he : isWellFormed cc tx spec p = .err e) (hfee : e ≠ .feeLessThanMin p.minTxFee p.minTxFee)
    (hprog : ∀ a b, e ≠ .appProgramsTooLong a b) : TxReason cc tx spec p e := by
  rw [isWellFormed, unit_bind_err, unit_bind_err, unit_bind_err] at he
  rcases he with he | ⟨_, he | ⟨_, he | ⟨_, he⟩⟩⟩
  · rw [checkFields] at he
    obtain ⟨hd, fields⟩ := tx
    cases fields with
    | payment f =>
      simp only [checkSpender] at he
      rw [ite_err_err] at he
      rcases he with ⟨h, rfl⟩ | ⟨_, he⟩
      · exact h
      by_cases hs : hd.sender = spec.feeSink
      · rw [if_pos hs, ite_err_err, ite_err_err] at he
        rcases he with ⟨h, rfl⟩ | ⟨_, ⟨h, rfl⟩ | ⟨_, h⟩⟩
        · exact ⟨hs, h⟩
        · refine ⟨hs, fun hn => ?_⟩
          rw [hn] at h
          cases h
        · cases h
      · rw [if_neg hs] at he
        cases he
    | keyreg f =>
      have := checkKeyreg_reason f hd p e he
      cases e <;> first | exact this | exact False.elim this
    | assetConfig f =>
      simp only at he
      rw [ite_err_err] at he
      rcases he with ⟨h, rfl⟩ | ⟨_, he⟩
      · show p.asset = false
        simpa using h
      · cases he
    | assetTransfer f =>
      simp only at he
      rw [ite_err_err] at he
      rcases he with ⟨h, rfl⟩ | ⟨_, he⟩
      · show p.asset = false
        simpa using h
      · cases he
    | assetFreeze f =>
      simp only at he
      rw [ite_err_err] at he
      rcases he with ⟨h, rfl⟩ | ⟨_, he⟩
      · show p.asset = false
        simpa using h
      · cases he
    | appCall f =>
      have := checkAppCall_reason f p e hprog he
      cases e <;> first | exact this | exact False.elim this
    | compactCert f =>
      simp only [checkCompactCert, ite_err_err] at he
      rcases he with ⟨h, rfl⟩ | ⟨_, ⟨h, rfl⟩ | ⟨_, ⟨h, rfl⟩ | ⟨_, ⟨h, rfl⟩ | ⟨_, ⟨h, rfl⟩ | ⟨_, ⟨h, rfl⟩ | ⟨_, ⟨h, rfl⟩ |
        ⟨_, he⟩⟩⟩⟩⟩⟩⟩
      all_goals first | exact h | cases he
  · rw [checkCommon] at he
    simp only [ite_err_err] at he
    rcases he with ⟨h, rfl⟩ | ⟨_, ⟨h, rfl⟩ | ⟨_, ⟨h, rfl⟩ | ⟨_, ⟨h, rfl⟩ | ⟨_, he⟩⟩⟩⟩
    · refine ⟨rfl, rfl, ?_, by simpa using h.1, by simpa [isCompactCert_iff] using h.2.2⟩
      rcases Nat.lt_or_eq_of_le h.2.1 with hlt | heq
      · exact hlt
      · rw [heq] at hfee
        exact absurd rfl hfee
    · exact ⟨rfl, rfl, h⟩
    · exact ⟨rfl, rfl, by omega⟩
    · exact ⟨rfl, rfl, h⟩
    · cases he
  · rw [checkAsset] at he
    obtain ⟨hd, fields⟩ := tx
    cases fields with
    | assetConfig f =>
      simp only [ite_err_err] at he
      rcases he with ⟨h, rfl⟩ | ⟨_, ⟨h, rfl⟩ | ⟨_, ⟨h, rfl⟩ | ⟨_, ⟨h, rfl⟩ | ⟨_, he⟩⟩⟩⟩
      · exact ⟨rfl, rfl, h⟩
      · exact ⟨rfl, rfl, h⟩
      · exact ⟨rfl, rfl, h⟩
      · exact ⟨rfl, rfl, h⟩
      · cases he
    | _ => cases he
  · rw [checkSender] at he
    by_cases hp : tx.header.sender = spec.rewardsPool
    · rw [if_pos hp] at he
      cases he
    rw [if_neg hp] at he
    simp only [ite_err_err] at he
    rcases he with ⟨h, rfl⟩ | ⟨_, ⟨h, rfl⟩ | ⟨_, ⟨h, rfl⟩ | ⟨_, ⟨h, rfl⟩ | ⟨_, he⟩⟩⟩⟩
    · exact h
    · exact ⟨h.2, by simpa using h.1⟩
    · exact ⟨h.2, by simpa using h.1⟩
    · exact ⟨h.2, by simpa using h.1⟩
    · cases he

example : isWellFormed [1] { toyPay 1001 with header := { (toyPay 1001).header with lastValid := 9 } } ⟨[2], [3]⟩ v27Base =
    .err (.badValidityRange 10 9) := by decide +kernel

/-- C145 is false for fees: a payment of the minimum fee, 1000, is told that 1000 is less than the minimum, 1000. -/
theorem C145_fee_violated : ∃ tx spec p, isWellFormed [1] tx spec p = .err (.feeLessThanMin 1000 1000) ∧
    ¬ TxReason [1] tx spec p (.feeLessThanMin 1000 1000) :=
  ⟨toyPay 1000, ⟨[2], [3]⟩, v27Base, by decide +kernel, fun h => absurd h.2.2.1 (by decide)⟩

/-- Protocol 30 with at most 2 bytes for one program and 3 bytes for both. -/
def tinyPrograms : Params := { v30Base with maxAppProgramLen := 2, maxAppTotalProgramLen := 3 }

/-- C145 is false for the two programs of an application: with 2 bytes allowed for each and 3 for both, two programs of
2 bytes are told that the limit for both is 2. -/
theorem C145_programs_violated :
    ∃ tx spec, isWellFormed [1] tx spec tinyPrograms = .err (.appProgramsTooLong 4 2) ∧
    ¬ TxReason [1] tx spec tinyPrograms (.appProgramsTooLong 4 2) := by
  refine ⟨⟨toyTxHeader, .appCall ⟨0, .noOp, [], [], [], [], ⟨0, 0⟩, ⟨0, 0⟩, [1, 1], [1, 1], 0⟩⟩, ⟨[2], [3]⟩, by decide +kernel,
    fun h => ?_⟩
  have h2 : (2 : Nat) = 3 := h.2.1
  exact absurd h2 (by decide)

/-- C145, exactly, for the two programs: they are too long together, their total length is reported, but with the limit
for one program. -/
theorem C145_programs (cc : Bytes) (tx : Transaction) (spec : SpecialAddresses) (p : Params) (a b : Nat)
    (he : isWellFormed cc tx spec p = .err (.appProgramsTooLong a b)) : ∃ f, tx.fields = .appCall f ∧
      a = f.approvalProgram.length + f.clearStateProgram.length ∧ pagesOf f p * p.maxAppTotalProgramLen < a ∧
      b = pagesOf f p * p.maxAppProgramLen ∧ f.approvalProgram.length ≤ b ∧ f.clearStateProgram.length ≤ b := by
  have hprog : ∀ (f : AppCall) (epp : Nat), pagesOf f p = 1 + epp → checkPrograms f p epp = .err (.appProgramsTooLong a b) →
      a = f.approvalProgram.length + f.clearStateProgram.length ∧ pagesOf f p * p.maxAppTotalProgramLen < a ∧
      b = pagesOf f p * p.maxAppProgramLen ∧ f.approvalProgram.length ≤ b ∧ f.clearStateProgram.length ≤ b := by
    intro f epp hepp he
    rw [checkPrograms, addU32] at he
    split at he
    swap
    · simp at he
    rw [Res.ok_bind, mulU32] at he
    split at he
    swap
    · simp at he
    rw [Res.ok_bind, ite_err_err, ite_err_err] at he
    rcases he with ⟨_, h⟩ | ⟨h1, ⟨_, h⟩ | ⟨h2, he⟩⟩
    · cases h
    · cases h
    rw [mulU32] at he
    split at he
    swap
    · simp at he
    rw [Res.ok_bind] at he
    simp only [ite_err_err] at he
    rcases he with ⟨h, h'⟩ | ⟨_, ⟨_, h⟩ | ⟨_, ⟨_, h⟩ | ⟨_, he⟩⟩⟩
    · simp only [InvalidTx.appProgramsTooLong.injEq] at h'
      obtain ⟨rfl, rfl⟩ := h'
      rw [hepp]
      exact ⟨rfl, h, rfl, by omega, by omega⟩
    · cases h
    · cases h
    · cases he
  rw [isWellFormed, unit_bind_err, unit_bind_err, unit_bind_err] at he
  rcases he with he | ⟨_, he | ⟨_, he | ⟨_, he⟩⟩⟩
  · rw [checkFields] at he
    obtain ⟨hd, fields⟩ := tx
    cases fields with
    | payment f =>
      simp only [checkSpender] at he
      rw [ite_err_err] at he
      rcases he with ⟨_, h⟩ | ⟨_, he⟩
      · cases h
      split at he
      · rw [ite_err_err, ite_err_err] at he
        rcases he with ⟨_, h⟩ | ⟨_, ⟨_, h⟩ | ⟨_, h⟩⟩ <;> cases h
      · cases he
    | keyreg f => exact False.elim (checkKeyreg_reason f hd p _ he)
    | assetConfig f =>
      simp only at he
      rw [ite_err_err] at he
      rcases he with ⟨_, h⟩ | ⟨_, h⟩ <;> cases h
    | assetTransfer f =>
      simp only at he
      rw [ite_err_err] at he
      rcases he with ⟨_, h⟩ | ⟨_, h⟩ <;> cases h
    | assetFreeze f =>
      simp only at he
      rw [ite_err_err] at he
      rcases he with ⟨_, h⟩ | ⟨_, h⟩ <;> cases h
    | appCall f =>
      refine ⟨f, rfl, ?_⟩
      simp only [checkAppCall, ite_err_err] at he
      rcases he with ⟨_, h⟩ | ⟨_, ⟨_, h⟩ | ⟨_, ⟨_, h⟩ | ⟨_, ⟨_, h⟩ | ⟨_, ⟨_, h⟩ | ⟨_, ⟨_, h⟩ | ⟨_, ⟨_, h⟩ |
        ⟨_, ⟨_, h⟩ | ⟨_, ⟨_, h⟩ | ⟨_, ⟨_, h⟩ | ⟨_, ⟨_, h⟩ | ⟨_, he⟩⟩⟩⟩⟩⟩⟩⟩⟩⟩⟩
      iterate 11 · cases h
      exact hprog f _ rfl he
    | compactCert f =>
      simp only [checkCompactCert, ite_err_err] at he
      rcases he with ⟨_, h⟩ | ⟨_, ⟨_, h⟩ | ⟨_, ⟨_, h⟩ | ⟨_, ⟨_, h⟩ | ⟨_, ⟨_, h⟩ | ⟨_, ⟨_, h⟩ | ⟨_, ⟨_, h⟩ | ⟨_, h⟩⟩⟩⟩⟩⟩⟩ <;> cases h
  · rw [checkCommon] at he
    simp only [ite_err_err] at he
    rcases he with ⟨_, h⟩ | ⟨_, ⟨_, h⟩ | ⟨_, ⟨_, h⟩ | ⟨_, ⟨_, h⟩ | ⟨_, h⟩⟩⟩⟩ <;> cases h
  · rw [checkAsset] at he
    obtain ⟨hd, fields⟩ := tx
    cases fields with
    | assetConfig f =>
      simp only [ite_err_err] at he
      rcases he with ⟨_, h⟩ | ⟨_, ⟨_, h⟩ | ⟨_, ⟨_, h⟩ | ⟨_, ⟨_, h⟩ | ⟨_, h⟩⟩⟩⟩ <;> cases h
    | _ => cases he
  · rw [checkSender] at he
    split at he
    · cases he
    simp only [ite_err_err] at he
    rcases he with ⟨_, h⟩ | ⟨_, ⟨_, h⟩ | ⟨_, ⟨_, h⟩ | ⟨_, ⟨_, h⟩ | ⟨_, h⟩⟩⟩⟩ <;> cases h

theorem builtin_program_lens : builtin.all (fun e =>
    decide (e.2.maxAppProgramLen = e.2.maxAppTotalProgramLen) ||
    decide (2 * e.2.maxAppProgramLen ≤ e.2.maxAppTotalProgramLen)) = true := by decide +kernel

/-- C145 for the built-in protocols: every refusal except that of a fee equal to the minimum names a rule that is broken,
with the values that break it. Missing: the fee, and protocols with other limits. -/
theorem C145_builtin_partial (cc : Bytes) (tx : Transaction) (spec : SpecialAddresses) (v : Version) (p : Params)
    (hv : lookup builtin v = some p) (e : InvalidTx)
    (he : isWellFormed cc tx spec p = .err e) (hfee : e ≠ .feeLessThanMin p.minTxFee p.minTxFee) :
    TxReason cc tx spec p e := by
  by_cases hp : ∃ a b, e = .appProgramsTooLong a b
  · obtain ⟨a, b, rfl⟩ := hp
    obtain ⟨f, hf, ha, hlt, hb, h1, h2⟩ := C145_programs cc tx spec p a b he
    have hrow := List.all_eq_true.1 builtin_program_lens (v, p) ((lookup_eq_some builtin_nodup v p).1 hv)
    simp only [Bool.or_eq_true, decide_eq_true_eq] at hrow
    rcases hrow with h | h
    · obtain ⟨hd, fields⟩ := tx
      cases hf
      exact ⟨ha, by rw [← h]; exact hb, by rw [hb, h]; exact hlt⟩
    · have := Nat.mul_le_mul_left (pagesOf f p) h
      have h3 : pagesOf f p * (2 * p.maxAppProgramLen) = 2 * (pagesOf f p * p.maxAppProgramLen) := by
        rw [Nat.mul_left_comm]
      omega
  · exact C145_reason_partial cc tx spec p e he hfee (fun a b h => hp ⟨a, b, h⟩)

example : ∃ p, lookup builtin .v27 = some p ∧ isWellFormed [1] (toyPay 999) ⟨[2], [3]⟩ p = .err (.feeLessThanMin 999 1000) := by
  have h : (lookup builtin .v27).map (fun p => isWellFormed [1] (toyPay 999) ⟨[2], [3]⟩ p) =
    some (.err (.feeLessThanMin 999 1000)) := by decide +kernel
  cases hl : lookup builtin .v27 with
  | none => rw [hl] at h; cases h
  | some p => rw [hl] at h; exact ⟨p, rfl, by simpa using h⟩

/-! ## Headers -/

/-- The version that a state has under vote: one other than the current one. -/
def Pending (s : UpgradeState) (w : Version) : Prop := s.next = some w ∧ w ≠ s.current

/-- The state before the ballot of a block is counted: a proposal opens a vote. -/
def Opened (p : Params) (s : UpgradeState) (round : Nat) (v : UpgradeVote) : UpgradeState :=
  if v.propose = s.current then s
  else ⟨s.current, some v.propose, 0, round + p.upgradeVoteRounds,
    round + p.upgradeVoteRounds + if v.delay = 0 then p.defaultUpgradeWaitRounds else v.delay⟩

/-- The state after the ballot. -/
def Counted (p : Params) (s : UpgradeState) (round : Nat) (v : UpgradeVote) : UpgradeState :=
  { Opened p s round v with approvals := (Opened p s round v).approvals + if v.approve then 1 else 0 }

/-- The upgrade state that a block of a round with a ballot must carry after a parent in state `s`. -/
def Follows (p : Params) (s : UpgradeState) (round : Nat) (v : UpgradeVote) (t : UpgradeState) : Prop :=
  let c := Counted p s round v
  if round = c.voteBefore ∧ c.approvals < p.upgradeThreshold then t = ⟨c.current, none, 0, 0, 0⟩
  else if round = c.switchOn then ∃ n, c.next = some n ∧ t = ⟨n, none, 0, 0, 0⟩
  else t = c

/-- What an error of `pre_check` says about a header and its parent. -/
def HeaderReason {AD : Type} (env : Env AD) (tbl : Protocols) (self prev : BlockHeader) : InvalidBlock → Prop
  | .wrongRound r expected => r = self.body.round ∧ expected = prev.body.round + 1 ∧ r ≠ expected
  | .wrongBranch a expected => a = self.body.branch ∧ expected = headerHash env prev ∧ a ≠ expected
  | .wrongUpgradeState => ∃ p, lookup tbl prev.upgradeState.current = some p ∧
      ¬ Follows p prev.upgradeState self.body.round self.body.upgradeVote self.upgradeState
  | .badEarlyTimestamp t prevT => t = self.body.timestamp ∧ prevT = prev.body.timestamp ∧ t < prevT
  | .badLateTimestamp t prevT max => t = self.body.timestamp ∧ prevT = prev.body.timestamp ∧
      (∃ p, lookup tbl self.upgradeState.current = some p ∧ max = p.maxTimestampIncrement) ∧ prevT + max < t
  | .missingGenesisId => self.body.genesisId = []
  | .genesisIdMismatch a before => a = self.body.genesisId ∧ before = prev.body.genesisId ∧ a ≠ before
  | .missingGenesisHash => self.body.genesisHash = Block.zeroHash ∧
      ∃ p, lookup tbl self.upgradeState.current = some p ∧ p.supportGenesisHash = true
  | .genesisHashMismatch a before => a = self.body.genesisHash ∧ before = prev.body.genesisHash ∧ a ≠ before
  | .genesisHashNotSupported => self.body.genesisHash ≠ Block.zeroHash ∧
      ∃ p, lookup tbl self.upgradeState.current = some p ∧ p.supportGenesisHash = false
  | .competingProposal => self.body.upgradeVote.propose ≠ prev.upgradeState.current ∧ ∃ w, Pending prev.upgradeState w
  | .delayOutOfRange d min max => d = self.body.upgradeVote.delay ∧ self.body.upgradeVote.propose ≠ prev.upgradeState.current ∧
      (∃ p, lookup tbl prev.upgradeState.current = some p ∧ min = p.minUpgradeWaitRounds ∧ max = p.maxUpgradeWaitRounds) ∧
      (d < min ∨ max < d)
  | .nonZeroDelayWithoutProposal =>
      self.body.upgradeVote.delay ≠ 0 ∧ self.body.upgradeVote.propose = prev.upgradeState.current
  | .approvalNoneActive => self.body.upgradeVote.approve = true ∧
      self.body.upgradeVote.propose = prev.upgradeState.current ∧ ¬ ∃ w, Pending prev.upgradeState w
  | .approvalAfterDeadline r deadline => r = self.body.round ∧ self.body.upgradeVote.approve = true ∧
      (∃ p w, lookup tbl prev.upgradeState.current = some p ∧
        Pending (Opened p prev.upgradeState r self.body.upgradeVote) w ∧
        deadline = (Opened p prev.upgradeState r self.body.upgradeVote).voteBefore) ∧ deadline ≤ r
  | _ => False

/-- What is wrong with the two refusals of a vote that need a pending proposal. -/
def NeedsProposal : InvalidBlock → Prop
  | .competingProposal => True
  | .approvalAfterDeadline _ _ => True
  | _ => False

theorem applyProposal_opened (p : Params) (s s1 : UpgradeState) (round : Nat) (v : UpgradeVote)
    (h : applyProposal p s round v = .ok s1) : s1 = Opened p s round v := by
  rw [applyProposal] at h
  rw [Opened]
  by_cases hv : v.propose = s.current
  · rw [if_neg (by simpa using hv)] at h
    rw [if_pos hv]
    split at h
    · cases h
    · simpa using h.symm
  · rw [if_pos hv] at h
    rw [if_neg hv]
    split at h
    · cases h
    split at h
    · cases h
    simp only [addU64] at h
    split at h
    swap
    · simp at h
    rw [Res.ok_bind] at h
    generalize hd : (if v.delay = 0 then p.defaultUpgradeWaitRounds else v.delay) = d at h ⊢
    split at h
    swap
    · simp at h
    simpa using h.symm

theorem applyUpgradeVote_follows (tbl : Protocols) (s t : UpgradeState) (p : Params) (hp : lookup tbl s.current = some p)
    (round : Nat) (v : UpgradeVote) (h : applyUpgradeVote tbl s round v = .ok t) (u : UpgradeState) :
    Follows p s round v u ↔ u = t := by
  rw [applyUpgradeVote, hp] at h
  simp only [Res.ofOption_some, Res.ok_bind] at h
  obtain ⟨s1, h1, h⟩ := Res.bind_eq_ok.1 h
  obtain ⟨s2, h2, h3⟩ := Res.bind_eq_ok.1 h
  have e1 := applyProposal_opened p s s1 round v h1
  have e2 : s2 = Counted p s round v := by
    rw [Counted, ← e1]
    rw [applyApproval] at h2
    by_cases ha : v.approve = true
    · rw [if_pos ha] at h2 ⊢
      split at h2
      · cases h2
      split at h2
      · cases h2
      rw [addU64] at h2
      split at h2
      · simpa using h2.symm
      · simp at h2
    · rw [if_neg ha] at h2 ⊢
      simpa using h2.symm
  rw [Follows, ← e2]
  rw [clearFailed] at h3
  by_cases hc : round = s2.voteBefore ∧ s2.approvals < p.upgradeThreshold
  · rw [if_pos hc] at h3 ⊢
    rw [switchOver] at h3
    split at h3
    · simp [Res.ofOption_none] at h3
    · simp only [Res.ok.injEq] at h3
      rw [← h3]
  · rw [if_neg hc] at h3 ⊢
    rw [switchOver] at h3
    split at h3
    · rename_i hr
      rw [if_pos hr]
      cases hn : s2.next with
      | none => simp [hn, Res.ofOption_none] at h3
      | some n =>
        simp only [hn, Res.ofOption_some, Res.ok_bind, Res.ok.injEq] at h3
        simp [h3]
    · rename_i hr
      rw [if_neg hr]
      simp only [Res.ok.injEq] at h3
      rw [h3]

/-- The errors of a vote: what each of them says, given that a proposal that the code takes for pending is one. -/
theorem applyUpgradeVote_reason {AD : Type} (env : Env AD) (tbl : Protocols) (self prev : BlockHeader) (e : InvalidBlock)
    (t : UpgradeState)
    (h : applyUpgradeVote tbl prev.upgradeState self.body.round self.body.upgradeVote = .err (e, t))
    (hn : NeedsProposal e → prev.upgradeState.next ≠ none) : HeaderReason env tbl self prev e := by
  rw [applyUpgradeVote] at h
  cases hp : lookup tbl prev.upgradeState.current with
  | none => simp [hp, Res.ofOption_none] at h
  | some p =>
  rw [hp] at h
  simp only [Res.ofOption_some, Res.ok_bind] at h
  cases h1 : applyProposal p prev.upgradeState self.body.round self.body.upgradeVote with
  | panic => rw [h1] at h; simp at h
  | err x =>
    rw [h1] at h
    simp only [Res.err_bind, Res.err.injEq] at h
    subst h
    rw [applyProposal] at h1
    by_cases hv : self.body.upgradeVote.propose = prev.upgradeState.current
    · rw [if_neg (by simpa using hv)] at h1
      split at h1
      · rename_i hd
        cases h1
        exact ⟨hd, hv⟩
      · cases h1
    · rw [if_pos hv] at h1
      split at h1
      · rename_i hne
        cases h1
        refine ⟨hv, ?_⟩
        cases hw : prev.upgradeState.next with
        | none => exact absurd hw (hn trivial)
        | some w =>
          rw [hw] at hne
          exact ⟨w, hw, by simpa using hne⟩
      · split at h1
        · rename_i hd
          cases h1
          exact ⟨rfl, hv, ⟨p, hp, rfl, rfl⟩, by omega⟩
        · simp only [addU64] at h1
          split at h1
          swap
          · simp at h1
          rw [Res.ok_bind] at h1
          generalize (if self.body.upgradeVote.delay = 0 then p.defaultUpgradeWaitRounds
            else self.body.upgradeVote.delay) = d at h1
          split at h1
          · cases h1
          · simp at h1
  | ok s1 =>
    rw [h1, Res.ok_bind] at h
    have e1 := applyProposal_opened p _ _ _ _ h1
    cases h2 : applyApproval s1 self.body.round self.body.upgradeVote with
    | panic => rw [h2] at h; simp at h
    | ok s2 =>
      rw [h2, Res.ok_bind, switchOver] at h
      split at h
      · cases hc : (clearFailed p s2 self.body.round).next with
        | none => simp [hc, Res.ofOption_none] at h
        | some n => simp [hc] at h
      · cases h
    | err x =>
      rw [h2] at h
      simp only [Res.err_bind, Res.err.injEq] at h
      subst h
      rw [applyApproval] at h2
      by_cases ha : self.body.upgradeVote.approve = true
      swap
      · rw [if_neg ha] at h2
        cases h2
      rw [if_pos ha] at h2
      split at h2
      · rename_i hcur
        cases h2
        have hv : self.body.upgradeVote.propose = prev.upgradeState.current := by
          by_contra hv
          rw [e1, Opened, if_neg hv] at hcur
          simp only [Option.some.injEq] at hcur
          exact hv hcur
        refine ⟨ha, hv, ?_⟩
        rw [e1, Opened, if_pos hv] at hcur
        rintro ⟨w, hw, hne⟩
        rw [hcur] at hw
        exact hne (Option.some.inj hw).symm
      · rename_i hcur
        split at h2
        · rename_i hr
          cases h2
          refine ⟨rfl, ha, ?_, hr⟩
          rw [e1] at hcur ⊢
          cases hw : (Opened p prev.upgradeState self.body.round self.body.upgradeVote).next with
          | none =>
            rw [Opened] at hw
            split at hw
            · exact absurd hw (hn trivial)
            · cases hw
          | some w =>
            rw [hw] at hcur
            exact ⟨p, w, hp, ⟨hw, by simpa using hcur⟩, rfl⟩
        · rw [addU64] at h2
          split at h2
          · cases h2
          · simp at h2

/-- What holds of C146 for `pre_check`: every refusal other than that of the round names a rule that is broken, with the
values that break it, provided the parent does not use the representation "no next protocol" when the refusal is about a
pending proposal. Missing: see `C146_round_swapped`, `C146_competing_violated` and `C146_deadline_violated`. -/
theorem C146_reason_partial {AD : Type} (env : Env AD) (tbl : Protocols) (self prev : BlockHeader) (e : InvalidBlock)
    (he : (preCheck env tbl self prev).1 = .err e) (hr : ∀ a b, e ≠ .wrongRound a b)
    (hn : NeedsProposal e → prev.upgradeState.next ≠ none) : HeaderReason env tbl self prev e := by
  rw [preCheck] at he
  cases hp : lookup tbl self.upgradeState.current with
  | none => rw [hp] at he; cases he
  | some params =>
  rw [hp] at he
  simp only at he
  rw [addU64] at he
  by_cases hlim : prev.body.round + 1 < u64Lim
  swap
  · rw [if_neg hlim] at he; cases he
  rw [if_pos hlim] at he
  simp only at he
  by_cases h1 : prev.body.round + 1 ≠ self.body.round
  · rw [if_pos h1] at he
    simp only [Res.err.injEq] at he
    exact absurd he.symm (hr _ _)
  rw [if_neg h1] at he
  have h1' : prev.body.round + 1 = self.body.round := by simpa using h1
  by_cases h2 : self.body.branch ≠ headerHash env prev
  · rw [if_pos h2] at he
    simp only [Res.err.injEq] at he
    subst he
    exact ⟨rfl, rfl, h2⟩
  rw [if_neg h2, h1'] at he
  cases hv : applyUpgradeVote tbl prev.upgradeState self.body.round self.body.upgradeVote with
  | panic => rw [hv] at he; cases he
  | err x =>
    obtain ⟨e', s⟩ := x
    rw [hv] at he
    simp only [Res.err.injEq] at he
    subst he
    exact applyUpgradeVote_reason env tbl self prev _ s hv hn
  | ok s =>
    rw [hv] at he
    simp only at he
    rw [ite_err_err, unit_bind_err] at he
    rcases he with ⟨hne, rfl⟩ | ⟨_, he | ⟨_, he⟩⟩
    · cases hc : lookup tbl prev.upgradeState.current with
      | none => simp [applyUpgradeVote, hc, Res.ofOption_none] at hv
      | some p =>
        refine ⟨p, hc, ?_⟩
        rw [applyUpgradeVote_follows tbl _ _ p hc _ _ hv]
        exact fun h => hne h.symm
    · rw [checkTimestamp] at he
      split at he
      · rw [ite_err_err] at he
        rcases he with ⟨h, rfl⟩ | ⟨_, he⟩
        · exact ⟨rfl, rfl, h⟩
        · rw [addU64] at he
          split at he
          · rw [Res.ok_bind, ite_err_err] at he
            rcases he with ⟨h, rfl⟩ | ⟨_, h⟩
            · exact ⟨rfl, rfl, ⟨params, hp, rfl⟩, h⟩
            · cases h
          · simp at he
      · cases he
    · rw [checkGenesis, ite_err_err, ite_err_err] at he
      rcases he with ⟨h, rfl⟩ | ⟨_, ⟨h, rfl⟩ | ⟨_, he⟩⟩
      · exact h
      · exact ⟨rfl, rfl, h.2⟩
      · split at he
        · rename_i hs
          rw [ite_err_err, ite_err_err] at he
          rcases he with ⟨h, rfl⟩ | ⟨_, ⟨h, rfl⟩ | ⟨_, h⟩⟩
          · exact ⟨h, params, hp, hs⟩
          · exact ⟨rfl, rfl, fun hh => h.2 hh.symm⟩
          · cases h
        · rename_i hs
          rw [ite_err_err] at he
          rcases he with ⟨h, rfl⟩ | ⟨_, h⟩
          · exact ⟨h, params, hp, by simpa using hs⟩
          · cases h

/-- C146 is false for the round, always: the error calls the round after the parent the round of the block and the round
of the block the expected one. -/
theorem C146_round_swapped {AD : Type} (env : Env AD) (tbl : Protocols) (self prev : BlockHeader) (a b : Nat)
    (he : (preCheck env tbl self prev).1 = .err (.wrongRound a b)) :
    a = prev.body.round + 1 ∧ b = self.body.round ∧ ¬ HeaderReason env tbl self prev (.wrongRound a b) := by
  rw [preCheck] at he
  cases hp : lookup tbl self.upgradeState.current with
  | none => rw [hp] at he; cases he
  | some params =>
  rw [hp] at he
  simp only at he
  rw [addU64] at he
  by_cases hlim : prev.body.round + 1 < u64Lim
  swap
  · rw [if_neg hlim] at he; cases he
  rw [if_pos hlim] at he
  simp only at he
  by_cases h1 : prev.body.round + 1 ≠ self.body.round
  · rw [if_pos h1] at he
    simp only [Res.err.injEq, InvalidBlock.wrongRound.injEq] at he
    obtain ⟨rfl, rfl⟩ := he
    exact ⟨rfl, rfl, fun h => h1 h.1⟩
  rw [if_neg h1] at he
  have h1' : prev.body.round + 1 = self.body.round := by simpa using h1
  by_cases h2 : self.body.branch ≠ headerHash env prev
  · rw [if_pos h2] at he; cases he
  rw [if_neg h2, h1'] at he
  exfalso
  cases hv : applyUpgradeVote tbl prev.upgradeState self.body.round self.body.upgradeVote with
  | panic => rw [hv] at he; cases he
  | err x =>
    obtain ⟨e', s⟩ := x
    rw [hv] at he
    simp only [Res.err.injEq] at he
    subst he
    exact (applyUpgradeVote_reason env tbl { self with body := { self.body with round := self.body.round } } prev _ s hv
      (fun h => h.elim)).2.2 (by
        have := applyUpgradeVote_reason env tbl self prev _ s hv (fun h => h.elim)
        rw [this.1, this.2.1]; exact h1'.symm)
  | ok s =>
    rw [hv] at he
    simp only at he
    rw [ite_err_err, unit_bind_err] at he
    rcases he with ⟨_, h⟩ | ⟨_, he | ⟨_, he⟩⟩
    · cases h
    · rw [checkTimestamp] at he
      split at he
      · rw [ite_err_err] at he
        rcases he with ⟨_, h⟩ | ⟨_, he⟩
        · cases h
        · rw [addU64] at he
          split at he
          · rw [Res.ok_bind, ite_err_err] at he
            rcases he with ⟨_, h⟩ | ⟨_, h⟩ <;> cases h
          · simp at he
      · cases he
    · rw [checkGenesis, ite_err_err, ite_err_err] at he
      rcases he with ⟨_, h⟩ | ⟨_, ⟨_, h⟩ | ⟨_, he⟩⟩
      · cases h
      · cases h
      · split at he
        · rw [ite_err_err, ite_err_err] at he
          rcases he with ⟨_, h⟩ | ⟨_, ⟨_, h⟩ | ⟨_, h⟩⟩ <;> cases h
        · rw [ite_err_err] at he
          rcases he with ⟨_, h⟩ | ⟨_, h⟩ <;> cases h

/-- C146 is false for proposals: a header that proposes an upgrade while the parent has no next protocol is told that
another proposal is pending. -/
theorem C146_competing_violated {AD : Type} (env : Env AD) (tbl : Protocols) (self prev : BlockHeader) (p q : Params)
    (hp : lookup tbl self.upgradeState.current = some p) (hq : lookup tbl prev.upgradeState.current = some q)
    (hlim : self.body.round < u64Lim) (hround : self.body.round = prev.body.round + 1)
    (hbranch : self.body.branch = headerHash env prev) (hnext : prev.upgradeState.next = none)
    (hvote : self.body.upgradeVote.propose ≠ prev.upgradeState.current) :
    (preCheck env tbl self prev).1 = .err .competingProposal ∧ ¬ HeaderReason env tbl self prev .competingProposal := by
  refine ⟨?_, fun ⟨_, w, hw, _⟩ => by rw [hnext] at hw; cases hw⟩
  rw [preCheck, hp]
  simp only
  rw [addU64, if_pos (by omega)]
  simp only
  rw [if_neg (by omega), if_neg (by simp [hbranch]), applyUpgradeVote, hq, Res.ofOption_some, Res.ok_bind, applyProposal,
    if_pos hvote, if_pos (by rw [hnext]; simp)]
  rfl

/-- C146 is false for approvals: a header that approves while the parent has no next protocol is told that the vote is
over. -/
theorem C146_deadline_violated {AD : Type} (env : Env AD) (tbl : Protocols) (self prev : BlockHeader) (p q : Params)
    (hp : lookup tbl self.upgradeState.current = some p) (hq : lookup tbl prev.upgradeState.current = some q)
    (hlim : self.body.round < u64Lim) (hround : self.body.round = prev.body.round + 1)
    (hbranch : self.body.branch = headerHash env prev) (hnext : prev.upgradeState.next = none)
    (hzero : prev.upgradeState.voteBefore = 0) (hvote : self.body.upgradeVote = ⟨prev.upgradeState.current, 0, true⟩) :
    (preCheck env tbl self prev).1 = .err (.approvalAfterDeadline self.body.round 0) ∧
    ¬ HeaderReason env tbl self prev (.approvalAfterDeadline self.body.round 0) := by
  refine ⟨?_, fun ⟨_, _, ⟨q', w, _, hw, _⟩, _⟩ => ?_⟩
  · rw [preCheck, hp]
    simp only
    rw [addU64, if_pos (by omega)]
    simp only
    rw [if_neg (by omega), if_neg (by simp [hbranch]), applyUpgradeVote, hq, Res.ofOption_some, Res.ok_bind, hvote,
      applyProposal, if_neg (by simp), if_neg (by simp), Res.ok_bind, applyApproval, if_pos rfl,
      if_neg (by rw [hnext]; simp), if_pos (by omega), hzero, hround]
    rfl
  · rw [Pending, Opened, hvote, if_pos rfl, hnext] at hw
    cases hw.1

/-- A parent in round 10 with protocol 29 and nothing pending, and its children with a ballot. -/
def calmParent : BlockHeader := { toyParent with upgradeState := ⟨.v29, none, 0, 0, 0⟩ }
def calmChild {AD : Type} (env : Env AD) (v : UpgradeVote) : BlockHeader :=
  ⟨⟨11, headerHash env calmParent, Block.zeroHash, Block.zeroHash, 1010, [103], List.replicate 32 1, RewardsState.default,
    v, 0, none⟩, calmParent.upgradeState⟩

example {AD : Type} (env : Env AD) :
    (preCheck env builtin (calmChild env ⟨.v30, 10000, false⟩) calmParent).1 = .err .competingProposal ∧
    (preCheck env builtin (calmChild env ⟨.v29, 0, true⟩) calmParent).1 = .err (.approvalAfterDeadline 11 0) := by
  obtain ⟨p, hp⟩ : ∃ p, lookup builtin .v29 = some p := Option.isSome_iff_exists.1 (by decide +kernel)
  exact ⟨(C146_competing_violated env builtin _ _ p p hp hp (show 11 < u64Lim by decide) rfl rfl rfl
      (show Version.v30 ≠ Version.v29 by decide)).1,
    (C146_deadline_violated env builtin _ _ p p hp hp (show 11 < u64Lim by decide) rfl rfl rfl rfl rfl).1⟩

/-- C146 in one case: a child of `toyParent` that proposes is refused because of the pending proposal. -/
example {AD : Type} (env : Env AD) :
    HeaderReason env builtin { toyChild env with body := { (toyChild env).body with upgradeVote := ⟨.v30, 10000, false⟩ } }
      toyParent .competingProposal := ⟨by show Version.v30 ≠ Version.v29; decide, .v30, rfl, by show Version.v30 ≠ Version.v29; decide⟩

/-! ## Transactions in blocks -/

/-- What an error of `encode_signed_tx` says about a transaction and a block. -/
def StoreReason (p : Params) (h : BlockHeader) (st : SignedTx) : InvalidBlock → Prop
  | .genesisIdMismatch given expected =>
      given = st.tx.header.genesisId ∧ expected = h.body.genesisId ∧ given ≠ expected
  | .genesisHashMismatch given expected =>
      given = st.tx.header.genesisHash ∧ expected = h.body.genesisHash ∧ given ≠ expected
  | .missingGenesisHash => st.tx.header.genesisHash = Block.zeroHash ∧ p.requireGenesisHash = true
  | _ => False

/-- What an error of `decode_signed_tx` says about a stored transaction. -/
def FetchReason {AD : Type} (p : Params) (stb : Stib AD) : InvalidBlock → Prop
  | .nonEmptyGenesisId => stb.tx.tx.tx.header.genesisId ≠ [] ∧ p.supportSignedTxInBlock = true
  | .nonEmptyGenesisHash => stb.tx.tx.tx.header.genesisHash ≠ Block.zeroHash ∧ p.supportSignedTxInBlock = true
  | .redundantHasGenesisHash =>
      stb.hasGenesisHash = true ∧ p.requireGenesisHash = true ∧ p.supportSignedTxInBlock = true
  | _ => False

/-- C146 for `decode_signed_tx`: every refusal names what is wrong with the stored transaction. -/
theorem C146_fetch {AD : Type} (tbl : Protocols) (h : BlockHeader) (p : Params)
    (hp : lookup tbl h.upgradeState.current = some p) (stb : Stib AD) (e : InvalidBlock)
    (he : decodeSignedTx tbl h stb = .err e) : FetchReason p stb e := by
  rw [decodeSignedTx, hp, Res.ofOption_some, Res.ok_bind] at he
  split at he
  · cases he
  rename_i hs
  have hs' : p.supportSignedTxInBlock = true := by simpa using hs
  rw [ite_err_err, ite_err_err, ite_err_err] at he
  rcases he with ⟨h, rfl⟩ | ⟨_, ⟨h, rfl⟩ | ⟨_, ⟨h, rfl⟩ | ⟨_, h⟩⟩⟩
  · exact ⟨h, hs'⟩
  · exact ⟨h, hs'⟩
  · exact ⟨h.2, h.1, hs'⟩
  · cases h

/-- An error with its two values exchanged. -/
def swapped : InvalidBlock → InvalidBlock
  | .genesisIdMismatch a b => .genesisIdMismatch b a
  | .genesisHashMismatch a b => .genesisHashMismatch b a
  | e => e

/-- C146 for `encode_signed_tx`, exactly: every refusal names what is wrong with the transaction, once the two values of a
mismatch are exchanged. -/
theorem C146_store_partial {AD : Type} (tbl : Protocols) (h : BlockHeader) (p : Params)
    (hp : lookup tbl h.upgradeState.current = some p) (st : SignedTx) (ad : AD) (e : InvalidBlock)
    (he : encodeSignedTx tbl h st ad = .err e) :
    StoreReason p h st (swapped e) ∧ (swapped e ≠ e → ¬ StoreReason p h st e) := by
  rw [encodeSignedTx, hp, Res.ofOption_some, Res.ok_bind] at he
  split at he
  · cases he
  cases h1 : stripGenesisId h st.tx.header.genesisId with
  | panic => rw [h1] at he; simp at he
  | err e' =>
    rw [h1] at he
    simp only [Res.err_bind, Res.err.injEq] at he
    subst he
    rw [stripGenesisId] at h1
    split at h1
    · split at h1
      · cases h1
      · rename_i hne
        cases h1
        refine ⟨⟨rfl, rfl, hne⟩, fun _ h2 => hne ?_⟩
        exact h2.1.symm
    · cases h1
  | ok x =>
    rw [h1, Res.ok_bind] at he
    cases h2 : stripGenesisHash h p st.tx.header.genesisHash with
    | panic => rw [h2] at he; simp at he
    | ok y => rw [h2] at he; simp at he
    | err e' =>
      rw [h2] at he
      simp only [Res.err_bind, Res.err.injEq] at he
      subst he
      rw [stripGenesisHash] at h2
      split at h2
      · split at h2
        · cases h2
        · rename_i hne
          cases h2
          refine ⟨⟨rfl, rfl, hne⟩, fun _ h3 => hne ?_⟩
          exact h3.1.symm
      · rename_i hz
        split at h2
        · rename_i hr
          cases h2
          exact ⟨⟨by simpa using hz, hr⟩, fun h => absurd rfl h⟩
        · cases h2

/-- C146 is false for storing transactions: one with the genesis id `[5]` put into a block with the id `[103]` is told
that it has `[103]` and the block `[5]`. -/
theorem C146_store_violated : ∃ st : SignedTx, encodeSignedTx builtin toyParent st () = .err (.genesisIdMismatch [103] [5]) ∧
    st.tx.header.genesisId = [5] ∧ toyParent.body.genesisId = [103] :=
  ⟨(toyStored [5] (List.replicate 32 1) false false).tx.tx, by decide +kernel, rfl, rfl⟩

/-- A new application with a program of two bytes and one of two bytes, with `tinyPrograms`. -/
def toyNewApp : Transaction :=
  ⟨toyTxHeader, .appCall ⟨0, .noOp, [], [], [], [], ⟨0, 0⟩, ⟨0, 0⟩, [1, 1], [1, 1], 0⟩⟩

/-- A case of `C145_programs`: four bytes where three are allowed; two are reported as the limit. -/
example : isWellFormed [1] toyNewApp ⟨[2], [3]⟩ tinyPrograms = .err (.appProgramsTooLong 4 2) ∧
    ∃ f, toyNewApp.fields = .appCall f ∧ pagesOf f tinyPrograms * tinyPrograms.maxAppTotalProgramLen < 4 := by
  have h : isWellFormed [1] toyNewApp ⟨[2], [3]⟩ tinyPrograms = .err (.appProgramsTooLong 4 2) := by decide +kernel
  obtain ⟨f, h1, _, h3, _⟩ := C145_programs [1] toyNewApp ⟨[2], [3]⟩ tinyPrograms 4 2 h
  exact ⟨h, f, h1, h3⟩

/-- A case of `C146_round_swapped`: a block two rounds later. -/
example {AD : Type} (env : Env AD) : ∃ self, (preCheck env builtin self toyParent).1 = .err (.wrongRound 11 12) ∧
    ¬ HeaderReason env builtin self toyParent (.wrongRound 11 12) := by
  have h : (preCheck env builtin { toyChild env with body := { (toyChild env).body with round := 12 } } toyParent).1 =
    .err (.wrongRound 11 12) := by
    have h0 : (lookup builtin .v29).isSome = true := by decide +kernel
    obtain ⟨p, hp⟩ := Option.isSome_iff_exists.1 h0
    rw [preCheck]
    simp only [toyChild]
    rw [hp]
    rfl
  exact ⟨_, h, (C146_round_swapped env builtin _ _ _ _ h).2.2⟩

/-- A case of `C146_reason_partial`: a block on another branch. -/
example {AD : Type} (env : Env AD) (br : Bytes) (hb : br ≠ headerHash env toyParent) : ∃ self e,
    (preCheck env builtin self toyParent).1 = .err e ∧ e = .wrongBranch br (headerHash env toyParent) ∧
    HeaderReason env builtin self toyParent e := by
  have h0 : (lookup builtin .v29).isSome = true := by decide +kernel
  obtain ⟨p, hp⟩ := Option.isSome_iff_exists.1 h0
  obtain ⟨e, he, h⟩ : ∃ e, e = .wrongBranch br (headerHash env toyParent) ∧ (preCheck env builtin
    { toyChild env with body := { (toyChild env).body with branch := br } } toyParent).1 = .err e :=
    ⟨_, rfl, by
      rw [preCheck]
      simp only [toyChild]
      rw [hp, show addU64 toyParent.body.round 1 = .ok 11 from rfl]
      simp only [ne_eq, not_true_eq_false, if_false]
      rw [if_pos hb]⟩
  subst he
  exact ⟨_, _, h, rfl, C146_reason_partial env builtin _ _ _ h (fun _ _ h => by cases h) (fun h => h.elim)⟩

/-- A case of `C146_fetch`: an entry that names the network although the block does. -/
example (p : Params) (hp : lookup builtin .v29 = some p) : ∃ e, decodeSignedTx builtin toyParent
      (⟨⟨⟨List.replicate 64 0, none, none, toyPay 5, zero32⟩, ()⟩, false, false⟩ : Stib Unit) = .err e ∧ FetchReason p
      (⟨⟨⟨List.replicate 64 0, none, none, toyPay 5, zero32⟩, ()⟩, false, false⟩ : Stib Unit) e := by
  have h0 : (lookup builtin .v29).map (·.supportSignedTxInBlock) = some true := by decide +kernel
  rw [hp] at h0
  have hs := Option.some.inj h0
  have h : decodeSignedTx builtin toyParent (⟨⟨⟨List.replicate 64 0, none, none, toyPay 5, zero32⟩, ()⟩, false, false⟩ : Stib Unit) =
    .err .nonEmptyGenesisId := by
    rw [decodeSignedTx, show lookup builtin toyParent.upgradeState.current = some p from hp]
    simp [Res.ofOption_some, hs, toyPay, toyTxHeader]
  exact ⟨_, h, C146_fetch builtin toyParent p hp _ _ h⟩

/-- A case of `C146_store_partial`: a transaction for network `m` in a block of network `g`; the names are swapped. -/
example (p : Params) (hp : lookup builtin .v29 = some p) : ∃ e, encodeSignedTx builtin toyParent
      ⟨List.replicate 64 0, none, none, toyPay 5, zero32⟩ () = .err e ∧
    ¬ StoreReason p toyParent ⟨List.replicate 64 0, none, none, toyPay 5, zero32⟩ e := by
  have h0 : (lookup builtin .v29).map (·.supportSignedTxInBlock) = some true := by decide +kernel
  rw [hp] at h0
  have hs := Option.some.inj h0
  have h : encodeSignedTx builtin toyParent ⟨List.replicate 64 0, none, none, toyPay 5, zero32⟩ () =
    .err (.genesisIdMismatch [103] [109]) := by
    rw [encodeSignedTx, show lookup builtin toyParent.upgradeState.current = some p from hp]
    simp [Res.ofOption_some, hs, toyPay, toyTxHeader, toyParent, stripGenesisId]
  exact ⟨_, h, (C146_store_partial builtin toyParent p hp _ _ _ h).2 (by simp [swapped])⟩

end Verif.Props
