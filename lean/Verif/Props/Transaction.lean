import Verif.Model.Transaction
import Verif.Props.Consensus
import Verif.Props.Multisig
import Verif.Props.HashId
import Mathlib.Tactic.Ring
import Mathlib.Tactic.Linarith
import Mathlib.Tactic.Tauto
/-!
# Properties of transactions (C40 - C48, C65)
-/

namespace Verif.Props
open Verif Verif.Consensus Verif.Teal Verif.HashId Verif.Tx

theorem ite_err_ok {ε α : Type} {c : Prop} [Decidable c] {e : ε} {r : Res ε α} {x : α} :
    (if c then .err e else r) = .ok x ↔ ¬ c ∧ r = .ok x := by
  by_cases h : c <;> simp [h]

theorem ite_err_panic {ε α : Type} {c : Prop} [Decidable c] {e : ε} {r : Res ε α} :
    (if c then .err e else r) = .panic ↔ ¬ c ∧ r = .panic := by
  by_cases h : c <;> simp [h]

theorem unit_bind_ok {ε : Type} {r s : Res ε Unit} : (do r; s) = .ok () ↔ r = .ok () ∧ s = .ok () := by
  cases r <;> simp

theorem unit_bind_panic {ε : Type} {r s : Res ε Unit} :
    (do r; s) = .panic ↔ r = .panic ∨ r = .ok () ∧ s = .panic := by
  cases r <;> simp

/-! ## C40: liveness -/

/-- C40: alive exactly when the round is in the window and the genesis values fit the network. -/
theorem C40_alive_iff (h : Header) (tc : TxContext) :
    alive h tc = .ok () ↔
      (h.firstValid ≤ tc.round ∧ tc.round ≤ h.lastValid) ∧
      (h.genesisId = [] ∨ h.genesisId = tc.genesisId) ∧
      (if tc.proto.supportGenesisHash then
        h.genesisHash = tc.genesisHash ∧ h.genesisHash ≠ zero32 ∨
          h.genesisHash = zero32 ∧ tc.proto.requireGenesisHash = false
      else h.genesisHash = zero32) := by
  rw [alive]
  simp only [ite_err_ok]
  by_cases hs : tc.proto.supportGenesisHash = true
  · simp only [hs, if_true, ite_err_ok]
    by_cases h0 : h.genesisHash = zero32 <;> by_cases h1 : h.genesisHash = tc.genesisHash <;>
      cases hr : tc.proto.requireGenesisHash <;> simp [h0, h1] <;>
      (try (intros; tauto)) <;> (try omega)
    all_goals (constructor <;> (rintro ⟨a, b⟩; refine ⟨by omega, ?_⟩; tauto))
  · simp only [hs, Bool.false_eq_true, if_false, ite_err_ok]
    constructor
    · rintro ⟨a, b, c, _⟩; exact ⟨by omega, by tauto, by tauto⟩
    · rintro ⟨a, b, c⟩; exact ⟨by omega, by tauto, by tauto, trivial⟩

/-- C40: it never crashes. -/
theorem C40_no_panic (h : Header) (tc : TxContext) : alive h tc ≠ .panic := by
  rw [alive]
  repeat' split
  all_goals simp

/-- Example network. -/
def toyContext (round : Nat) : TxContext := ⟨round, v30Base, [109], 5 :: List.replicate 31 0⟩

/-- Example header. -/
def toyTxHeader : Tx.Header :=
  { Tx.Header.default with sender := 9 :: List.replicate 31 0, fee := 1001, firstValid := 10, lastValid := 20,
                           genesisId := [109], genesisHash := 5 :: List.replicate 31 0 }

example : alive toyTxHeader (toyContext 20) = .ok () ∧ alive toyTxHeader (toyContext 21) = .err (.dead 21 10 20) := by decide

/-! ## C65: spenders -/

/-- C65: a payment is accepted exactly when it does not close to its sender, and, if it spends from the fee sink, pays
the rewards pool and does not close. -/
theorem C65_spender_iff (f : Payment) (h : Tx.Header) (spec : SpecialAddresses) :
    (checkSpender f h spec = .ok () ↔ f.closeRemainderTo ≠ some h.sender ∧
      (h.sender = spec.feeSink → f.receiver = spec.rewardsPool ∧ f.closeRemainderTo = none)) ∧
    checkSpender f h spec ≠ .panic := by
  rw [checkSpender]
  constructor
  · by_cases hs : h.sender = spec.feeSink
    · rw [if_pos hs]
      simp only [ite_err_ok, hs, true_implies, not_not]
      simp
    · simp [hs]
  · repeat' split
    all_goals simp

/-- C65: the three reasons of rejection. -/
theorem C65_errors (f : Payment) (h : Tx.Header) (spec : SpecialAddresses) :
    (f.closeRemainderTo = some h.sender → checkSpender f h spec = .err .cannotCloseToSender) ∧
    (f.closeRemainderTo ≠ some h.sender → h.sender = spec.feeSink → f.receiver ≠ spec.rewardsPool →
      checkSpender f h spec = .err .cannotSpendFromFeeSink) ∧
    (f.closeRemainderTo ≠ some h.sender → h.sender = spec.feeSink → f.receiver = spec.rewardsPool →
      f.closeRemainderTo ≠ none → checkSpender f h spec = .err .cannotCloseFeeSink) := by
  refine ⟨fun a => ?_, fun a b c => ?_, fun a b c d => ?_⟩
  · rw [checkSpender, if_pos a]
  · rw [checkSpender, if_neg a, if_pos b, if_pos c]
  · rw [checkSpender, if_neg a, if_pos b, if_neg (by simpa using c), if_pos]
    cases hc : f.closeRemainderTo
    · exact absurd hc d
    · rfl

example : checkSpender ⟨[7], 5, none⟩ { toyTxHeader with sender := [1] } ⟨[1], [7]⟩ = .ok () ∧
    checkSpender ⟨[8], 5, none⟩ { toyTxHeader with sender := [1] } ⟨[1], [7]⟩ = .err .cannotSpendFromFeeSink := by decide

/-! ## C44: key registration -/

/-- The voting key that stands for none: the encoding of the neutral point of the curve. -/
def noVoteKey : Bytes := [1, 0, 0, 0, 0, 0, 0, 0, 0, 0, 0, 0, 0, 0, 0, 0, 0, 0, 0, 0, 0, 0, 0, 0, 0, 0, 0, 0, 0, 0, 0, 0]

theorem defaultPk_noVoteKey : Ots.defaultPk = noVoteKey := rfl

/-- The participation fields of a key registration are all set, with an ordered voting interval that does not start
later than the round after `lastValid`. -/
def GoesOnline (f : Keyreg) (lastValid : Nat) : Prop :=
  f.votePk ≠ noVoteKey ∧ f.selectionPk ≠ zero32 ∧ f.voteKeyDilution ≠ 0 ∧ f.voteFirst ≤ f.voteLast ∧
    f.voteLast ≠ 0 ∧ f.voteFirst ≤ lastValid + 1

/-- The participation fields of a key registration are all clear. -/
def GoesOffline (f : Keyreg) : Prop :=
  f.votePk = noVoteKey ∧ f.selectionPk = zero32 ∧ f.voteKeyDilution = 0 ∧ f.voteFirst = 0 ∧ f.voteLast = 0

/-- C44: with rounds below the last 64-bit round, the coherence check accepts exactly these two shapes, and never
crashes. -/
theorem C44_coherent_iff (f : Keyreg) (h : Tx.Header) (hl : h.lastValid + 1 < 2 ^ 64) :
    (checkCoherency f h = .ok () ↔ GoesOnline f h.lastValid ∨ GoesOffline f) ∧ checkCoherency f h ≠ .panic := by
  rw [checkCoherency, addU64, if_pos hl, Res.ok_bind, GoesOnline, GoesOffline, defaultVrfPk, defaultPk_noVoteKey]
  constructor
  · by_cases hd : f.voteKeyDilution = 0
    · rw [if_pos hd]
      simp only [ite_err_ok, hd]
      constructor
      · rintro ⟨_, h2, h3, _⟩
        right
        simp only [not_or, not_not] at h3
        simp at h2
        exact ⟨h2.1, h2.2, trivial, h3.1, h3.2⟩
      · rintro (⟨_, _, h3, _⟩ | ⟨h1, h2, _, h4, h5⟩)
        · exact absurd rfl h3
        · refine ⟨by omega, ?_, by simp [h4, h5], trivial⟩
          simp [h1, h2]
    · rw [if_neg hd]
      simp only [ite_err_ok]
      constructor
      · rintro ⟨h1, h2, h3, h4, _⟩
        left
        simp [hd] at h2
        exact ⟨h2.1, h2.2, hd, by omega, h3, by omega⟩
      · rintro (⟨a, b, c, d, e, g⟩ | ⟨_, _, h3, _⟩)
        · refine ⟨by omega, ?_, e, by omega, trivial⟩
          simp [a, b, c]
        · exact absurd h3 hd
  · repeat' split
    all_goals simp

/-- C44: the same for whole transactions: an accepted key registration under a protocol with the check is coherent; one
that gives up participation is only accepted where supported, and then has all fields clear. -/
theorem C44_accepted (cc : Bytes) (f : Keyreg) (h : Tx.Header) (spec : SpecialAddresses) (p : Params)
    (hl : h.lastValid + 1 < 2 ^ 64) (hp : p.enableKeyregCoherencyCheck = true)
    (hok : isWellFormed cc ⟨h, .keyreg f⟩ spec p = .ok ()) :
    (GoesOnline f h.lastValid ∨ GoesOffline f) ∧
    (f.nonparticipation = true → GoesOffline f ∧ p.supportBecomeNonParticipatingTransactions = true) := by
  rw [isWellFormed, unit_bind_ok] at hok
  have h1 := hok.1
  rw [checkFields] at h1
  simp only at h1
  rw [checkKeyreg, if_pos hp, unit_bind_ok] at h1
  obtain ⟨h2, h3⟩ := h1
  have h4 := (C44_coherent_iff f h hl).1.1 h2
  refine ⟨h4, fun hn => ?_⟩
  rw [checkNonParticipation, if_pos hn] at h3
  simp only [ite_err_ok, not_not] at h3
  refine ⟨?_, by simpa using h3.1⟩
  rcases h4 with h5 | h5
  · rcases h3.2.1 with h6 | h6
    · exact absurd h6 h5.1
    · exact absurd h6 h5.2.1
  · exact h5

example : ∃ f : Keyreg, checkCoherency f toyTxHeader = .ok () ∧ GoesOnline f 20 :=
  ⟨⟨[2], [3], 21, 500, 10, false⟩, by decide, by unfold GoesOnline; decide⟩

/-! ## C41 - C43: well-formedness -/

/-- Total length of the application arguments. -/
def argBytes (f : AppCall) : Nat := (f.applicationArgs.map List.length).sum

/-- Number of program pages an application call may use: one, plus the requested extra pages; all of them when an
existing application is called and the protocol says so. -/
def pagesOf (f : AppCall) (p : Params) : Nat :=
  1 + if f.applicationId ≠ 0 ∧ p.enableExtraPagesOnAppUpdate = true then p.maxExtraAppProgramPages else f.extraProgramPages

/-- The documented limits of an application call. -/
structure AppLimits (f : AppCall) (p : Params) : Prop where
  enabled : p.application = true
  programs : f.applicationId = 0 ∨ f.onCompletion = .updateApplication ∨
    f.approvalProgram = [] ∧ f.clearStateProgram = []
  schemas : f.applicationId = 0 ∨ f.localStateSchema = ⟨0, 0⟩ ∧ f.globalStateSchema = ⟨0, 0⟩
  extraPages : f.applicationId = 0 ∨ f.extraProgramPages = 0
  args : f.applicationArgs.length ≤ p.maxAppArgs
  argLen : argBytes f ≤ p.maxAppTotalArgLen
  accounts : f.accounts.length ≤ p.maxAppTxAccounts
  apps : f.foreignApps.length ≤ p.maxAppTxForeignApps
  assets : f.foreignAssets.length ≤ p.maxAppTxForeignAssets
  refs : f.accounts.length + f.foreignApps.length + f.foreignAssets.length ≤ p.maxAppTotalTxReferences
  pages : f.extraProgramPages ≤ p.maxExtraAppProgramPages
  approval : f.approvalProgram.length ≤ pagesOf f p * p.maxAppProgramLen
  clear : f.clearStateProgram.length ≤ pagesOf f p * p.maxAppProgramLen
  total : f.approvalProgram.length + f.clearStateProgram.length ≤ pagesOf f p * p.maxAppTotalProgramLen
  localSchema : f.localStateSchema.numUint + f.localStateSchema.numByteSlice ≤ p.maxLocalSchemaEntries
  globalSchema : f.globalStateSchema.numUint + f.globalStateSchema.numByteSlice ≤ p.maxGlobalSchemaEntries

/-- The documented limits that depend on the type of the transaction. -/
def TypeLimits (cc : Bytes) (tx : Transaction) (spec : SpecialAddresses) (p : Params) : Prop :=
  match tx.fields with
  | .payment f => f.closeRemainderTo ≠ some tx.header.sender ∧
      (tx.header.sender = spec.feeSink → f.receiver = spec.rewardsPool ∧ f.closeRemainderTo = none)
  | .keyreg f =>
      (p.enableKeyregCoherencyCheck = true → GoesOnline f tx.header.lastValid ∨ GoesOffline f) ∧
      (f.nonparticipation = true → p.supportBecomeNonParticipatingTransactions = true ∧
        (f.votePk = noVoteKey ∨ f.selectionPk = zero32))
  | .assetConfig f => p.asset = true ∧ f.assetParams.assetName.length ≤ p.maxAssetNameBytes ∧
      f.assetParams.unitName.length ≤ p.maxAssetUnitNameBytes ∧ f.assetParams.url.length ≤ p.maxAssetUrlBytes ∧
      f.assetParams.decimals ≤ p.maxAssetDecimals
  | .assetTransfer _ => p.asset = true
  | .assetFreeze _ => p.asset = true
  | .appCall f => AppLimits f p
  | .compactCert _ => p.compactCertRounds ≠ 0 ∧ tx.header.sender = cc ∧ tx.header.fee = 0 ∧ tx.header.note = [] ∧
      tx.header.group = zero32 ∧ tx.header.rekeyTo = zero32 ∧ tx.header.lease = zero32

/-- Whether the transaction is a compact certificate (exempt from the minimum fee). -/
def IsCert (tx : Transaction) : Prop := ∃ f, tx.fields = .compactCert f

/-- The documented limits of a transaction. -/
structure TxLimits (cc : Bytes) (tx : Transaction) (spec : SpecialAddresses) (p : Params) : Prop where
  type : TypeLimits cc tx spec p
  fee : p.enableFeePooling = true ∨ IsCert tx ∨ p.minTxFee ≤ tx.header.fee
  ordered : tx.header.firstValid ≤ tx.header.lastValid
  life : tx.header.lastValid ≤ tx.header.firstValid + p.maxTxLife
  note : tx.header.note.length ≤ p.maxTxNoteBytes
  sender : tx.header.sender ≠ zero32
  notPool : tx.header.sender ≠ spec.rewardsPool
  lease : p.supportTransactionLeases = true ∨ tx.header.lease = zero32
  group : p.supportTxGroups = true ∨ tx.header.group = zero32
  rekey : p.supportRekeying = true ∨ tx.header.rekeyTo = zero32

/-- The sizes that fit the machine integers of the source. -/
def FitsMachine (tx : Transaction) (p : Params) : Prop :=
  match tx.fields with
  | .keyreg f => p.enableKeyregCoherencyCheck = true → f.voteKeyDilution ≠ 0 → tx.header.lastValid + 1 < 2 ^ 64
  | .appCall f => f.extraProgramPages ≤ p.maxExtraAppProgramPages → pagesOf f p < 2 ^ 32 ∧
      pagesOf f p * p.maxAppProgramLen < 2 ^ 32 ∧ pagesOf f p * p.maxAppTotalProgramLen < 2 ^ 32
  | _ => True

/-- Limits of the parameter types (`u32` and `u64` below the maximum). -/
def ParamsFit (p : Params) : Prop :=
  p.maxAppTotalArgLen < 2 ^ 32 ∧ p.maxLocalSchemaEntries < 2 ^ 64 - 1 ∧ p.maxGlobalSchemaEntries < 2 ^ 64 - 1

theorem argSum_eq (args : List Bytes) : argSum args = min ((args.map List.length).sum) (2 ^ 64 - 1) := by
  have key : ∀ (l : List Bytes) (s : Nat), s ≤ 2 ^ 64 - 1 →
      l.foldl (fun s a => satAdd64 s a.length) s = min (s + (l.map List.length).sum) (2 ^ 64 - 1) := by
    intro l
    induction l with
    | nil => intro s hs; simp; omega
    | cons a l ih =>
      intro s hs
      have e : satAdd64 s a.length = min (s + a.length) (2 ^ 64 - 1) := rfl
      rw [List.foldl_cons, e, ih _ (by omega), List.map_cons, List.sum_cons]
      omega
  rw [argSum, key args 0 (by omega), Nat.zero_add]

theorem checkPrograms_iff (f : AppCall) (p : Params) (epp : Nat) (hp : ParamsFit p) (h1 : 1 + epp < 2 ^ 32)
    (h2 : (1 + epp) * p.maxAppProgramLen < 2 ^ 32) (h3 : (1 + epp) * p.maxAppTotalProgramLen < 2 ^ 32) :
    (checkPrograms f p epp = .ok () ↔ f.approvalProgram.length ≤ (1 + epp) * p.maxAppProgramLen ∧
      f.clearStateProgram.length ≤ (1 + epp) * p.maxAppProgramLen ∧
      f.approvalProgram.length + f.clearStateProgram.length ≤ (1 + epp) * p.maxAppTotalProgramLen ∧
      f.localStateSchema.numUint + f.localStateSchema.numByteSlice ≤ p.maxLocalSchemaEntries ∧
      f.globalStateSchema.numUint + f.globalStateSchema.numByteSlice ≤ p.maxGlobalSchemaEntries) ∧
    checkPrograms f p epp ≠ .panic := by
  have hne : ∀ s : Schema, s.numEntries = min (s.numUint + s.numByteSlice) (2 ^ 64 - 1) := by
    intro s; simp only [Schema.numEntries, satAdd64, u64Lim]; omega
  obtain ⟨_, hp2, hp3⟩ := hp
  rw [checkPrograms, addU32, if_pos h1, Res.ok_bind, mulU32, if_pos h2, Res.ok_bind, mulU32, if_pos h3, Res.ok_bind]
  constructor
  · simp only [ite_err_ok, hne]
    generalize (1 + epp) * p.maxAppProgramLen = A
    generalize (1 + epp) * p.maxAppTotalProgramLen = B
    have e : ∀ a M : Nat, M < 2 ^ 64 - 1 → (min a (2 ^ 64 - 1) ≤ M ↔ a ≤ M) := by intro a M h; omega
    simp only [not_lt, gt_iff_lt, e _ _ hp2, e _ _ hp3, and_true]
  · simp only [ne_eq, ite_err_panic]
    simp

theorem checkAppCall_iff (f : AppCall) (p : Params) (hp : ParamsFit p)
    (hfit : f.extraProgramPages ≤ p.maxExtraAppProgramPages → pagesOf f p < 2 ^ 32 ∧
      pagesOf f p * p.maxAppProgramLen < 2 ^ 32 ∧ pagesOf f p * p.maxAppTotalProgramLen < 2 ^ 32) :
    (checkAppCall f p = .ok () ↔ AppLimits f p) ∧ checkAppCall f p ≠ .panic := by
  by_cases hpages : f.extraProgramPages ≤ p.maxExtraAppProgramPages
  swap
  · rw [checkAppCall]
    constructor
    · simp only [ite_err_ok]
      constructor
      · rintro ⟨_, _, _, _, _, _, _, _, _, _, h, _⟩; omega
      · intro h; exact absurd h.pages hpages
    · simp only [ne_eq, ite_err_panic]
      rintro ⟨_, _, _, _, _, _, _, _, _, _, h, _⟩; omega
  replace hfit := hfit hpages
  obtain ⟨hc, hc'⟩ := checkPrograms_iff f p _ hp hfit.1 hfit.2.1 hfit.2.2
  have harg : ∀ l : Bytes, (¬ argSum f.applicationArgs > p.maxAppTotalArgLen) ↔ argBytes f ≤ p.maxAppTotalArgLen := by
    intro _
    rw [argSum_eq, argBytes]
    have := hp.1
    omega
  rw [checkAppCall]
  constructor
  · simp only [ite_err_ok, hc]
    constructor
    · rintro ⟨a1, a2, a3, a4, a5, a6, a7, a8, a9, a10, a11, b1, b2, b3, b4, b5⟩
      exact {
        enabled := by simpa using a1
        programs := by
          by_contra hcon
          apply a2
          simp only [not_or, not_and] at hcon
          refine ⟨hcon.1, hcon.2.1, ?_⟩
          by_cases hap : f.approvalProgram = []
          · exact Or.inr (hcon.2.2 hap)
          · exact Or.inl hap
        schemas := by
          by_contra hcon
          apply a3
          simp only [not_or, not_and] at hcon
          refine ⟨hcon.1, ?_⟩
          by_cases hap : f.localStateSchema = ⟨0, 0⟩
          · exact Or.inr (hcon.2 hap)
          · exact Or.inl hap
        extraPages := by
          by_contra hcon
          apply a4
          simpa using hcon
        args := by omega
        argLen := (harg []).1 a6
        accounts := by omega
        apps := by omega
        assets := by omega
        refs := by omega
        pages := by omega
        approval := b1
        clear := b2
        total := b3
        localSchema := b4
        globalSchema := b5 }
    · rintro ⟨a1, a2, a3, a4, a5, a6, a7, a8, a9, a10, a11, b1, b2, b3, b4, b5⟩
      refine ⟨by simp [a1], ?_, ?_, ?_, by omega, (harg []).2 a6, by omega, by omega, by omega, by omega, by omega,
        b1, b2, b3, b4, b5⟩
      · rintro ⟨c1, c2, c3⟩
        rcases a2 with h | h | h
        · exact c1 h
        · exact c2 h
        · rcases c3 with c3 | c3
          · exact c3 h.1
          · exact c3 h.2
      · rintro ⟨c1, c2⟩
        rcases a3 with h | h
        · exact c1 h
        · rcases c2 with c2 | c2
          · exact c2 h.1
          · exact c2 h.2
      · rintro ⟨c1, c2⟩
        rcases a4 with h | h
        · exact c1 h
        · exact c2 h
  · simp only [ne_eq, ite_err_panic]
    intro hcon
    exact hc' hcon.2.2.2.2.2.2.2.2.2.2.2

theorem isCompactCert_iff (tx : Transaction) : tx.fields.isCompactCert = true ↔ IsCert tx := by
  rw [IsCert]
  cases tx.fields <;> simp [Fields.isCompactCert]

/-- The exact condition for acceptance. -/
theorem wellFormed_iff (cc : Bytes) (tx : Transaction) (spec : SpecialAddresses) (p : Params) (hp : ParamsFit p)
    (hfit : FitsMachine tx p) :
    isWellFormed cc tx spec p = .ok () ↔ TxLimits cc tx spec p ∧
      (p.enableFeePooling = true ∨ IsCert tx ∨ tx.header.fee ≠ p.minTxFee) := by
  have hcommon : checkCommon tx p = .ok () ↔ (p.enableFeePooling = true ∨ IsCert tx ∨ p.minTxFee < tx.header.fee) ∧
      tx.header.firstValid ≤ tx.header.lastValid ∧ tx.header.lastValid ≤ tx.header.firstValid + p.maxTxLife ∧
      tx.header.note.length ≤ p.maxTxNoteBytes := by
    rw [checkCommon]
    simp only [ite_err_ok, isCompactCert_iff]
    constructor
    · rintro ⟨h1, h2, h3, h4, _⟩
      refine ⟨?_, by omega, by omega, by omega⟩
      by_contra hcon
      simp only [not_or] at hcon
      exact h1 ⟨hcon.1, by omega, hcon.2.1⟩
    · rintro ⟨h1, h2, h3, h4⟩
      refine ⟨?_, by omega, by omega, by omega, trivial⟩
      rintro ⟨c1, c2, c3⟩
      rcases h1 with h | h | h
      · exact c1 h
      · exact c3 h
      · omega
  have hsender : checkSender tx spec p = .ok () ↔ tx.header.sender ≠ spec.rewardsPool ∧ tx.header.sender ≠ zero32 ∧
      (p.supportTransactionLeases = true ∨ tx.header.lease = zero32) ∧
      (p.supportTxGroups = true ∨ tx.header.group = zero32) ∧
      (p.supportRekeying = true ∨ tx.header.rekeyTo = zero32) := by
    rw [checkSender]
    by_cases h : tx.header.sender = spec.rewardsPool
    · simp [h]
    · rw [if_neg h]
      simp only [ite_err_ok, ne_eq, h, not_false_eq_true, true_and, and_true, not_and_or, not_not]
  have htype : (checkFields cc tx spec p = .ok () ∧ checkAsset tx p = .ok ()) ↔ TypeLimits cc tx spec p := by
    rw [checkFields, checkAsset, TypeLimits]
    rw [FitsMachine] at hfit
    cases hf : tx.fields with
    | payment f => simp only [and_true]; exact (C65_spender_iff f tx.header spec).1
    | keyreg f =>
      simp only [hf] at hfit
      have hnp : checkNonParticipation f p = .ok () ↔ (f.nonparticipation = true →
          p.supportBecomeNonParticipatingTransactions = true ∧ (f.votePk = noVoteKey ∨ f.selectionPk = zero32)) := by
        rw [checkNonParticipation, defaultVrfPk, defaultPk_noVoteKey]
        by_cases hn : f.nonparticipation = true
        · rw [if_pos hn]; simp only [ite_err_ok, hn, true_implies, not_not, and_true]
        · rw [if_neg hn]; simp [hn]
      simp only [and_true]
      rw [checkKeyreg]
      by_cases hc : p.enableKeyregCoherencyCheck = true
      · rw [if_pos hc, unit_bind_ok, hnp]
        have hco : checkCoherency f tx.header = .ok () ↔ GoesOnline f tx.header.lastValid ∨ GoesOffline f := by
          by_cases hd : f.voteKeyDilution = 0
          · rw [checkCoherency, GoesOnline, GoesOffline, defaultVrfPk, defaultPk_noVoteKey, if_pos hd]
            simp only [ite_err_ok, hd]
            constructor
            · rintro ⟨_, h2, h3, _⟩
              right
              simp only [not_or, not_not] at h3
              simp at h2
              exact ⟨h2.1, h2.2, trivial, h3.1, h3.2⟩
            · rintro (⟨_, _, h3, _⟩ | ⟨h1, h2, _, h4, h5⟩)
              · exact absurd rfl h3
              · refine ⟨by omega, ?_, by simp [h4, h5], trivial⟩
                simp [h1, h2]
          · exact (C44_coherent_iff f tx.header (hfit hc hd)).1
        rw [hco]; simp [hc]
      · rw [if_neg hc, hnp]; simp [hc]
    | assetConfig f =>
      simp only [ite_err_ok, not_not, and_true, Nat.not_lt]
    | assetTransfer f => simp only [ite_err_ok, not_not, and_true]
    | assetFreeze f => simp only [ite_err_ok, not_not, and_true]
    | appCall f =>
      simp only [hf] at hfit
      simp only [and_true]
      exact (checkAppCall_iff f p hp hfit).1
    | compactCert f =>
      simp only [and_true, checkCompactCert, ite_err_ok, ne_eq, not_not]
  rw [isWellFormed, unit_bind_ok, unit_bind_ok, unit_bind_ok, hcommon, hsender]
  constructor
  · rintro ⟨a, ⟨b1, b2, b3, b4⟩, c, d1, d2, d3, d4, d5⟩
    refine ⟨⟨htype.1 ⟨a, c⟩, ?_, b2, b3, b4, d2, d1, d3, d4, d5⟩, ?_⟩
    · rcases b1 with h | h | h
      · exact Or.inl h
      · exact Or.inr (Or.inl h)
      · exact Or.inr (Or.inr (by omega))
    · rcases b1 with h | h | h
      · exact Or.inl h
      · exact Or.inr (Or.inl h)
      · exact Or.inr (Or.inr (by omega))
  · rintro ⟨⟨t, fee, o, l, n, s, np, le, g, r⟩, x⟩
    obtain ⟨a, c⟩ := htype.2 t
    refine ⟨a, ⟨?_, o, l, n⟩, c, np, s, le, g, r⟩
    rcases fee with h | h | h
    · exact Or.inl h
    · exact Or.inr (Or.inl h)
    · rcases x with x | x | x
      · exact Or.inl x
      · exact Or.inr (Or.inl x)
      · exact Or.inr (Or.inr (by omega))

theorem checkPrograms_fits (f : AppCall) (p : Params) (epp : Nat) (h : checkPrograms f p epp = .ok ()) :
    1 + epp < 2 ^ 32 ∧ (1 + epp) * p.maxAppProgramLen < 2 ^ 32 ∧ (1 + epp) * p.maxAppTotalProgramLen < 2 ^ 32 := by
  rw [checkPrograms] at h
  by_cases h1 : 1 + epp < 2 ^ 32
  · rw [addU32, if_pos h1, Res.ok_bind] at h
    by_cases h2 : (1 + epp) * p.maxAppProgramLen < 2 ^ 32
    · rw [mulU32, if_pos h2, Res.ok_bind] at h
      by_cases h3 : (1 + epp) * p.maxAppTotalProgramLen < 2 ^ 32
      · exact ⟨h1, h2, h3⟩
      · simp only [ite_err_ok] at h
        rw [mulU32, if_neg h3, Res.panic_bind] at h
        simp at h
    · rw [mulU32, if_neg h2, Res.panic_bind] at h
      simp at h
  · rw [addU32, if_neg h1, Res.panic_bind] at h
    simp at h

theorem fits_of_ok (cc : Bytes) (tx : Transaction) (spec : SpecialAddresses) (p : Params)
    (h : isWellFormed cc tx spec p = .ok ()) : FitsMachine tx p := by
  rw [isWellFormed, unit_bind_ok] at h
  obtain ⟨h1, _⟩ := h
  rw [checkFields] at h1
  rw [FitsMachine]
  cases hf : tx.fields with
  | keyreg f =>
    simp only [hf] at h1
    intro hc hd
    rw [checkKeyreg, if_pos hc, unit_bind_ok] at h1
    have h2 := h1.1
    rw [checkCoherency, if_neg hd] at h2
    simp only [ite_err_ok] at h2
    by_contra hcon
    rw [addU64, if_neg hcon, Res.panic_bind] at h2
    simp at h2
  | appCall f =>
    simp only [hf] at h1
    intro _
    rw [checkAppCall] at h1
    simp only [ite_err_ok] at h1
    exact checkPrograms_fits f p _ h1.2.2.2.2.2.2.2.2.2.2.2
  | payment f => trivial
  | assetConfig f => trivial
  | assetTransfer f => trivial
  | assetFreeze f => trivial
  | compactCert f => trivial

/-- C41: an accepted transaction keeps every documented limit of the protocol: its type is enabled and its fields are
within the type's limits, the fee covers the minimum unless pooled or exempt, the validity interval is ordered and at
most `maxTxLife` long, the note is short enough, the sender is neither zero nor the rewards pool, and lease, group and
rekeying are only used where supported. -/
theorem C41_accepted_within_limits (cc : Bytes) (tx : Transaction) (spec : SpecialAddresses) (p : Params)
    (hp : ParamsFit p) (h : isWellFormed cc tx spec p = .ok ()) : TxLimits cc tx spec p :=
  ((wellFormed_iff cc tx spec p hp (fits_of_ok cc tx spec p h)).1 h).1

/-- C41: the exact set of accepted transactions: the documented limits, machine sizes, and (the disagreement of C42) a
fee different from the minimum when fees are not pooled. -/
theorem C41_accepted_iff (cc : Bytes) (tx : Transaction) (spec : SpecialAddresses) (p : Params) (hp : ParamsFit p) :
    isWellFormed cc tx spec p = .ok () ↔ TxLimits cc tx spec p ∧ FitsMachine tx p ∧
      (p.enableFeePooling = true ∨ IsCert tx ∨ tx.header.fee ≠ p.minTxFee) := by
  constructor
  · intro h
    have hf := fits_of_ok cc tx spec p h
    have := (wellFormed_iff cc tx spec p hp hf).1 h
    exact ⟨this.1, hf, this.2⟩
  · rintro ⟨h1, h2, h3⟩
    exact (wellFormed_iff cc tx spec p hp h2).2 ⟨h1, h3⟩

/-- The arithmetic of the size limits of a protocol fits 32 bits. -/
def AppSizesFit (p : Params) : Prop :=
  1 + p.maxExtraAppProgramPages < 2 ^ 32 ∧ (1 + p.maxExtraAppProgramPages) * p.maxAppProgramLen < 2 ^ 32 ∧
    (1 + p.maxExtraAppProgramPages) * p.maxAppTotalProgramLen < 2 ^ 32

theorem builtin_fits : builtin.all (fun e =>
    decide (e.2.maxAppTotalArgLen < 2 ^ 32) && decide (e.2.maxLocalSchemaEntries < 2 ^ 64 - 1) &&
    decide (e.2.maxGlobalSchemaEntries < 2 ^ 64 - 1) && decide (1 + e.2.maxExtraAppProgramPages < 2 ^ 32) &&
    decide ((1 + e.2.maxExtraAppProgramPages) * e.2.maxAppProgramLen < 2 ^ 32) &&
    decide ((1 + e.2.maxExtraAppProgramPages) * e.2.maxAppTotalProgramLen < 2 ^ 32)) = true := by decide +kernel

/-- Every built-in protocol is within the sizes assumed in C41 and C43. -/
theorem C41_builtin_params_fit (v : Version) (p : Params) (h : lookup builtin v = some p) :
    ParamsFit p ∧ AppSizesFit p := by
  have hrow := List.all_eq_true.1 builtin_fits (v, p) ((lookup_eq_some builtin_nodup v p).1 h)
  simp only [Bool.and_eq_true, decide_eq_true_eq] at hrow
  exact ⟨⟨hrow.1.1.1.1.1, hrow.1.1.1.1.2, hrow.1.1.1.2⟩, hrow.1.1.2, hrow.1.2, hrow.2⟩

/-- Example payment under protocol 27, without fee pooling. -/
def toyPay (fee : Nat) : Transaction := ⟨{ toyTxHeader with fee := fee }, .payment ⟨[7], 5, none⟩⟩

example : isWellFormed [1] (toyPay 1001) ⟨[2], [3]⟩ v27Base = .ok () := by decide +kernel

/-- The same payment keeps every documented limit, for both fees. -/
theorem toyPay_limits (fee : Nat) (h : 1000 ≤ fee) : TxLimits [1] (toyPay fee) ⟨[2], [3]⟩ v27Base where
  type := by
    simp only [TypeLimits, toyPay]
    decide
  fee := Or.inr (Or.inr h)
  ordered := by show 10 ≤ 20; decide
  life := by show 20 ≤ 10 + v27Base.maxTxLife; decide
  note := by show ([] : Bytes).length ≤ v27Base.maxTxNoteBytes; decide
  sender := by show (9 :: List.replicate 31 0 : Bytes) ≠ zero32; decide
  notPool := by show (9 :: List.replicate 31 0 : Bytes) ≠ [3]; decide
  lease := Or.inr rfl
  group := Or.inr rfl
  rekey := Or.inr rfl

example : TxLimits [1] (toyPay 1000) ⟨[2], [3]⟩ v27Base := toyPay_limits 1000 (by decide)

/-- C42 is false: a payment within every limit that pays exactly the minimum fee of 1000 is rejected. -/
theorem C42_minimum_fee_violated :
    ∃ tx spec p, TxLimits [1] tx spec p ∧ p.enableFeePooling = false ∧ tx.header.fee = p.minTxFee ∧
      isWellFormed [1] tx spec p = .err (.feeLessThanMin tx.header.fee p.minTxFee) :=
  ⟨toyPay 1000, ⟨[2], [3]⟩, v27Base, toyPay_limits 1000 (by decide), by decide, by decide, by decide +kernel⟩

/-- C42, exactly: without fee pooling every transaction other than a compact certificate that is within the limits and
pays exactly the minimum is rejected as paying too little. -/
theorem C42_minimum_fee_always_rejected (cc : Bytes) (tx : Transaction) (spec : SpecialAddresses) (p : Params)
    (hpool : p.enableFeePooling = false) (hcert : ¬ IsCert tx) (hfee : tx.header.fee = p.minTxFee) :
    isWellFormed cc tx spec p ≠ .ok () := by
  rw [isWellFormed, ne_eq, unit_bind_ok, unit_bind_ok]
  rintro ⟨_, h, _⟩
  rw [checkCommon] at h
  simp only [ite_err_ok, isCompactCert_iff] at h
  exact h.1 ⟨by simp [hpool], by omega, hcert⟩

/-- What holds of C42: a transaction within the limits is accepted when its fee is above the minimum, or fees are
pooled, or it is exempt. Missing: a fee equal to the minimum. -/
theorem C42_above_minimum_partial (cc : Bytes) (tx : Transaction) (spec : SpecialAddresses) (p : Params)
    (hp : ParamsFit p) (hf : FitsMachine tx p) (h : TxLimits cc tx spec p)
    (hfee : p.enableFeePooling = true ∨ IsCert tx ∨ p.minTxFee < tx.header.fee) :
    isWellFormed cc tx spec p = .ok () := by
  refine (wellFormed_iff cc tx spec p hp hf).2 ⟨h, ?_⟩
  rcases hfee with h | h | h
  · exact Or.inl h
  · exact Or.inr (Or.inl h)
  · exact Or.inr (Or.inr (by omega))

example : isWellFormed [1] (toyPay 1001) ⟨[2], [3]⟩ v27Base = .ok () :=
  C42_above_minimum_partial _ _ _ _ (by unfold ParamsFit; decide +kernel) trivial (toyPay_limits 1001 (by decide))
    (Or.inr (Or.inr (by decide)))

/-- What holds of C43: the check never crashes when the sender is not the rewards pool and the sizes fit machine
integers. Missing: the crashes below. -/
theorem C43_no_panic_partial (cc : Bytes) (tx : Transaction) (spec : SpecialAddresses) (p : Params)
    (hp : ParamsFit p) (hf : FitsMachine tx p) (hs : tx.header.sender ≠ spec.rewardsPool) :
    isWellFormed cc tx spec p ≠ .panic := by
  have h1 : checkFields cc tx spec p ≠ .panic := by
    rw [checkFields]
    rw [FitsMachine] at hf
    cases hfields : tx.fields with
    | payment f => simp only [checkSpender]; repeat' split
                   all_goals simp
    | keyreg f =>
      simp only [hfields] at hf
      have hnp : checkNonParticipation f p ≠ .panic := by
        rw [checkNonParticipation]; repeat' split
        all_goals simp
      have hco : p.enableKeyregCoherencyCheck = true → checkCoherency f tx.header ≠ .panic := by
        intro hc
        by_cases hd : f.voteKeyDilution = 0
        · rw [checkCoherency, if_pos hd]; repeat' split
          all_goals simp
        · exact (C44_coherent_iff f tx.header (hf hc hd)).2
      simp only [checkKeyreg]
      split
      · rename_i hc
        rw [ne_eq, unit_bind_panic]
        simp [hco hc, hnp]
      · exact hnp
    | assetConfig f => simp only; split <;> simp
    | assetTransfer f => simp only; split <;> simp
    | assetFreeze f => simp only; split <;> simp
    | appCall f => simp only [hfields] at hf; exact (checkAppCall_iff f p hp hf).2
    | compactCert f => simp only [checkCompactCert]; repeat' split
                       all_goals simp
  have h2 : checkCommon tx p ≠ .panic := by
    rw [checkCommon]; repeat' split
    all_goals simp
  have h3 : checkAsset tx p ≠ .panic := by
    rw [checkAsset]; repeat' split
    all_goals simp
  have h4 : checkSender tx spec p ≠ .panic := by
    rw [checkSender, if_neg hs]; repeat' split
    all_goals simp
  rw [isWellFormed, ne_eq, unit_bind_panic, unit_bind_panic, unit_bind_panic]
  simp [h1, h2, h3, h4]

/-- C43 under the built-in protocols: the only crashes are a sender equal to the rewards pool and an online key
registration whose last valid round is the greatest 64-bit number. -/
theorem C43_no_panic_builtin_partial (cc : Bytes) (tx : Transaction) (spec : SpecialAddresses) (v : Version) (p : Params)
    (h : lookup builtin v = some p) (hs : tx.header.sender ≠ spec.rewardsPool) (hl : tx.header.lastValid + 1 < 2 ^ 64) :
    isWellFormed cc tx spec p ≠ .panic := by
  obtain ⟨hp, ha1, ha2, ha3⟩ := C41_builtin_params_fit v p h
  refine C43_no_panic_partial cc tx spec p hp ?_ hs
  rw [FitsMachine]
  cases tx.fields with
  | keyreg f => intro _ _; exact hl
  | appCall f =>
    intro hpages
    have hle : pagesOf f p ≤ 1 + p.maxExtraAppProgramPages := by
      rw [pagesOf]; split <;> omega
    exact ⟨by omega, lt_of_le_of_lt (Nat.mul_le_mul_right _ hle) ha2, lt_of_le_of_lt (Nat.mul_le_mul_right _ hle) ha3⟩
  | payment f => trivial
  | assetConfig f => trivial
  | assetTransfer f => trivial
  | assetFreeze f => trivial
  | compactCert f => trivial

/-- C43 is false: an otherwise acceptable payment whose sender is the rewards pool crashes the check. -/
theorem C43_rewards_pool_panics : isWellFormed [1] (toyPay 1001) ⟨[2], toyTxHeader.sender⟩ v27Base = .panic := by
  decide +kernel

/-- C43 is false for every transaction sent from the rewards pool that passes the other checks. -/
theorem C43_rewards_pool_never_rejected (cc : Bytes) (tx : Transaction) (spec : SpecialAddresses) (p : Params)
    (h1 : checkFields cc tx spec p = .ok ()) (h2 : checkCommon tx p = .ok ()) (h3 : checkAsset tx p = .ok ())
    (hs : tx.header.sender = spec.rewardsPool) : isWellFormed cc tx spec p = .panic := by
  rw [isWellFormed, h1, h2, h3, checkSender, if_pos hs]
  rfl

/-- C43 is false: an online key registration valid until the greatest round crashes the check. -/
theorem C43_last_round_panics :
    isWellFormed [1] ⟨{ toyTxHeader with firstValid := 2 ^ 64 - 1, lastValid := 2 ^ 64 - 1 },
      .keyreg ⟨[2], [3], 21, 500, 10, false⟩⟩ ⟨[2], [3]⟩ vFutureBase = .panic := by
  decide +kernel

/-- C43 is false under an override protocol with many pages: the page product overflows. -/
theorem C43_pages_panic :
    isWellFormed [1] ⟨toyTxHeader, .appCall ⟨0, .noOp, [], [], [], [], ⟨0, 0⟩, ⟨0, 0⟩, [1], [1], 2 ^ 31⟩⟩ ⟨[2], [3]⟩
      { v30Base with maxExtraAppProgramPages := 2 ^ 32 - 1 } = .panic := by
  decide +kernel

/-! ## C45: application references -/

theorem position_some {α : Type} [DecidableEq α] (a : α) (l : List α) (i : Nat) :
    position a l = some i ↔ l[i]? = some a ∧ ∀ j < i, l[j]? ≠ some a := by
  induction l generalizing i with
  | nil => simp [position]
  | cons b l ih =>
    rw [position]
    by_cases hb : b = a
    · rw [if_pos hb]
      constructor
      · intro h
        simp only [Option.some.injEq] at h
        subst h
        exact ⟨by simp [hb], by intro j hj; omega⟩
      · rintro ⟨h1, h2⟩
        cases i with
        | zero => rfl
        | succ i => exact absurd (by simp [hb]) (h2 0 (by omega))
    · rw [if_neg hb]
      cases i with
      | zero => simp [hb]
      | succ i =>
        simp only [Option.map_eq_some_iff, Nat.add_right_cancel_iff, exists_eq_right, ih, List.getElem?_cons_succ]
        constructor
        · rintro ⟨h1, h2⟩
          refine ⟨h1, fun j hj => ?_⟩
          cases j with
          | zero => simp [hb]
          | succ j => simpa using h2 j (by omega)
        · rintro ⟨h1, h2⟩
          exact ⟨h1, fun j hj => by simpa using h2 (j + 1) (by omega)⟩

theorem position_none {α : Type} [DecidableEq α] (a : α) (l : List α) : position a l = none ↔ a ∉ l := by
  induction l with
  | nil => simp [position]
  | cons b l ih =>
    rw [position]
    by_cases hb : b = a
    · simp [hb]
    · rw [if_neg hb]
      simp only [Option.map_eq_none_iff, ih, List.mem_cons, not_or]
      exact ⟨fun h => ⟨fun e => hb e.symm, h⟩, fun h => h.2⟩

/-- The list of references of an application call: the default entry (sender, or called application) and then the
listed ones. -/
def refs {α : Type} (a : α) (l : List α) : List α := a :: l

/-- C45: index `i` resolves to entry `i` of the list "sender, then accounts", and to an error beyond it. -/
theorem C45_address_of_index (f : AppCall) (i : Nat) (sender : Bytes) :
    addressByIndex f i sender = match (refs sender f.accounts)[i]? with
      | some a => .ok a
      | none => .err () := by
  rw [addressByIndex, refs]
  cases i with
  | zero => simp
  | succ i =>
    rw [if_neg (by omega)]
    simp only [List.getElem?_cons_succ, Nat.add_sub_cancel]
    by_cases h : i < f.accounts.length
    · rw [if_neg (by omega), List.getElem?_eq_getElem h]; rfl
    · rw [if_pos (by omega), List.getElem?_eq_none (by omega)]

/-- C45: looking up an address gives the first index that resolves to it, and an error exactly if there is none. -/
theorem C45_index_of_address (f : AppCall) (a sender : Bytes) (hlen : f.accounts.length < 2 ^ 64) :
    (∀ i, indexByAddress f a sender = .ok i ↔ addressByIndex f i sender = .ok a ∧
      ∀ j < i, addressByIndex f j sender ≠ .ok a) ∧
    (indexByAddress f a sender = .err () ↔ ∀ j, addressByIndex f j sender ≠ .ok a) ∧
    indexByAddress f a sender ≠ .panic := by
  have hres : ∀ j : Nat, addressByIndex f j sender = .ok a ↔ (refs sender f.accounts)[j]? = some a := by
    intro j
    rw [C45_address_of_index]
    cases (refs sender f.accounts)[j]? <;> simp
  simp only [ne_eq, hres]
  rw [indexByAddress]
  by_cases ha : a = sender
  · rw [if_pos ha]
    refine ⟨fun i => ?_, ?_, by simp⟩
    · constructor
      · intro h
        simp only [Res.ok.injEq] at h
        subst h
        exact ⟨by simp [refs, ha], by intro j hj; omega⟩
      · rintro ⟨h1, h2⟩
        cases i with
        | zero => rfl
        | succ i => exact absurd (by simp [refs, ha]) (h2 0 (by omega))
    · constructor
      · intro h; simp at h
      · intro h; exact absurd (by simp [refs, ha]) (h 0)
  · rw [if_neg ha]
    have ha' : ¬ sender = a := fun h => ha h.symm
    cases hp : position a f.accounts with
    | none =>
      have hn := (position_none a f.accounts).1 hp
      have hnone : ∀ j : Nat, ¬ (refs sender f.accounts)[j]? = some a := by
        intro j hj
        have := List.mem_of_getElem? hj
        simp only [refs, List.mem_cons] at this
        exact this.elim ha hn
      refine ⟨fun i => ?_, by simp [hnone], by simp⟩
      simp [hnone]
    | some k =>
      obtain ⟨h1, h2⟩ := (position_some a f.accounts k).1 hp
      have hk : k < f.accounts.length := (List.getElem?_eq_some_iff.1 h1).1
      have e : addU64 k 1 = (.ok (k + 1) : Res Unit Nat) := by
        rw [addU64, if_pos (show k + 1 < u64Lim by simp only [u64Lim]; omega)]
      simp only [e]
      refine ⟨fun i => ?_, ?_, by simp⟩
      · constructor
        · intro h
          simp only [Res.ok.injEq] at h
          subst h
          refine ⟨by simpa [refs] using h1, fun j hj => ?_⟩
          cases j with
          | zero => simp [refs, ha']
          | succ j => simpa [refs] using h2 j (by omega)
        · rintro ⟨g1, g2⟩
          cases i with
          | zero => simp [refs, ha'] at g1
          | succ i =>
            have g1' : f.accounts[i]? = some a := by simpa [refs] using g1
            have : i = k := by
              rcases Nat.lt_trichotomy i k with h | h | h
              · exact absurd g1' (h2 i h)
              · exact h
              · exact absurd (by simpa [refs] using h1) (g2 (k + 1) (by omega))
            rw [this]
      · constructor
        · intro h; simp at h
        · intro h; exact absurd (by simpa [refs] using h1) (h (k + 1))

/-- C45: the two directions are mutually inverse when sender and accounts are pairwise different. -/
theorem C45_address_inverse (f : AppCall) (a sender : Bytes) (i : Nat) (hlen : f.accounts.length < 2 ^ 64)
    (hnd : (sender :: f.accounts).Nodup) :
    addressByIndex f i sender = .ok a ↔ indexByAddress f a sender = .ok i := by
  rw [(C45_index_of_address f a sender hlen).1]
  constructor
  · intro h
    refine ⟨h, fun j hj hcon => ?_⟩
    rw [C45_address_of_index, refs] at h hcon
    cases h1 : (sender :: f.accounts)[i]? with
    | none => simp [h1] at h
    | some x =>
      cases h2 : (sender :: f.accounts)[j]? with
      | none => simp [h2] at hcon
      | some y =>
        simp only [h1, h2, Res.ok.injEq] at h hcon
        obtain ⟨hi, hx⟩ := List.getElem?_eq_some_iff.1 h1
        obtain ⟨hj', hy⟩ := List.getElem?_eq_some_iff.1 h2
        have := List.pairwise_iff_getElem.1 hnd j i hj' hi hj
        rw [hx, hy, h, hcon] at this
        exact this rfl
  · exact fun h => h.1

/-- C45 for application ids: index `i` resolves to entry `i` of the list "called application, then foreign ones". -/
theorem C45_app_of_index (f : AppCall) (i : Nat) :
    appIdByIndex f i = match (refs f.applicationId f.foreignApps)[i]? with
      | some a => .ok a
      | none => .err () := by
  rw [appIdByIndex, refs]
  cases i with
  | zero => simp
  | succ i =>
    rw [if_neg (by omega)]
    simp only [List.getElem?_cons_succ, Nat.add_sub_cancel]
    by_cases h : i < f.foreignApps.length
    · rw [if_neg (by omega), List.getElem?_eq_getElem h]; rfl
    · rw [if_pos (by omega), List.getElem?_eq_none (by omega)]

/-- C45 for application ids: a lookup gives the first index that resolves to the id, and an error exactly if there is
none. -/
theorem C45_index_of_app (f : AppCall) (a : Nat) (hlen : f.foreignApps.length < 2 ^ 64) :
    (∀ i, indexByAppId f a = .ok i ↔ appIdByIndex f i = .ok a ∧ ∀ j < i, appIdByIndex f j ≠ .ok a) ∧
    (indexByAppId f a = .err () ↔ ∀ j, appIdByIndex f j ≠ .ok a) ∧ indexByAppId f a ≠ .panic := by
  have hres : ∀ j : Nat, appIdByIndex f j = .ok a ↔ (refs f.applicationId f.foreignApps)[j]? = some a := by
    intro j
    rw [C45_app_of_index]
    cases (refs f.applicationId f.foreignApps)[j]? <;> simp
  simp only [ne_eq, hres]
  rw [indexByAppId]
  by_cases ha : a = f.applicationId
  · rw [if_pos ha]
    refine ⟨fun i => ?_, ?_, by simp⟩
    · constructor
      · intro h
        simp only [Res.ok.injEq] at h
        subst h
        exact ⟨by simp [refs, ha], by intro j hj; omega⟩
      · rintro ⟨h1, h2⟩
        cases i with
        | zero => rfl
        | succ i => exact absurd (by simp [refs, ha]) (h2 0 (by omega))
    · constructor
      · intro h; simp at h
      · intro h; exact absurd (by simp [refs, ha]) (h 0)
  · rw [if_neg ha]
    have ha' : ¬ f.applicationId = a := fun h => ha h.symm
    cases hp : position a f.foreignApps with
    | none =>
      have hn := (position_none a f.foreignApps).1 hp
      have hnone : ∀ j : Nat, ¬ (refs f.applicationId f.foreignApps)[j]? = some a := by
        intro j hj
        have := List.mem_of_getElem? hj
        simp only [refs, List.mem_cons] at this
        exact this.elim ha hn
      refine ⟨fun i => ?_, by simp [hnone], by simp⟩
      simp [hnone]
    | some k =>
      obtain ⟨h1, h2⟩ := (position_some a f.foreignApps k).1 hp
      have hk : k < f.foreignApps.length := (List.getElem?_eq_some_iff.1 h1).1
      have e : addU64 k 1 = (.ok (k + 1) : Res Unit Nat) := by
        rw [addU64, if_pos (show k + 1 < u64Lim by simp only [u64Lim]; omega)]
      simp only [e]
      refine ⟨fun i => ?_, ?_, by simp⟩
      · constructor
        · intro h
          simp only [Res.ok.injEq] at h
          subst h
          refine ⟨by simpa [refs] using h1, fun j hj => ?_⟩
          cases j with
          | zero => simp [refs, ha']
          | succ j => simpa [refs] using h2 j (by omega)
        · rintro ⟨g1, g2⟩
          cases i with
          | zero => simp [refs, ha'] at g1
          | succ i =>
            have g1' : f.foreignApps[i]? = some a := by simpa [refs] using g1
            have : i = k := by
              rcases Nat.lt_trichotomy i k with h | h | h
              · exact absurd g1' (h2 i h)
              · exact h
              · exact absurd (by simpa [refs] using h1) (g2 (k + 1) (by omega))
            rw [this]
      · constructor
        · intro h; simp at h
        · intro h; exact absurd (by simpa [refs] using h1) (h (k + 1))

/-- Example application call. -/
def toyCall : AppCall := ⟨7, .noOp, [], [[1], [2]], [8, 9], [], ⟨0, 0⟩, ⟨0, 0⟩, [], [], 0⟩

example : addressByIndex toyCall 2 [5] = .ok [2] ∧ indexByAddress toyCall [2] [5] = .ok 2 ∧
    addressByIndex toyCall 3 [5] = .err () ∧ ([5] :: toyCall.accounts).Nodup ∧
    appIdByIndex toyCall 1 = .ok 8 ∧ indexByAppId toyCall 9 = .ok 2 := by decide

/-! ## C46: fee pooling -/

/-- Sum of the fees of a group. -/
def feeSum (g : List SignedTx) : Nat := (g.map (fun s => s.tx.header.fee)).sum

/-- Number of compact certificates in a group. -/
def certCount (g : List SignedTx) : Nat := (g.filter (fun s => s.tx.fields.isCompactCert)).length

theorem feeLoop_eq (g : List SignedTx) (c q : Nat) (hq : q < 2 ^ 64) (hc : c + g.length < 2 ^ 64) :
    feeLoop g c q = .ok (c + certCount g, min (q + feeSum g) (2 ^ 64 - 1)) := by
  induction g generalizing c q with
  | nil => simp only [feeLoop, certCount, feeSum]; simp; omega
  | cons s g ih =>
    simp only [List.length_cons] at hc
    have e : satAdd64 q s.tx.header.fee = min (q + s.tx.header.fee) (2 ^ 64 - 1) := rfl
    have hsum : feeSum (s :: g) = s.tx.header.fee + feeSum g := by simp [feeSum]
    rw [feeLoop, e, hsum]
    by_cases hs : s.tx.fields.isCompactCert = true
    · have hcc : certCount (s :: g) = certCount g + 1 := by simp [certCount, hs]
      rw [if_pos hs, addU64, if_pos (show c + 1 < u64Lim by simp only [u64Lim]; omega), Res.ok_bind,
        hcc]
      show feeLoop g (c + 1) _ = _
      rw [ih _ _ (by omega) (by omega)]
      simp only [Res.ok.injEq, Prod.mk.injEq]
      omega
    · have hcc : certCount (s :: g) = certCount g := by simp [certCount, hs]
      rw [if_neg hs, Res.ok_bind, hcc]
      show feeLoop g c _ = _
      rw [ih _ _ (by omega) (by omega)]
      simp only [Res.ok.injEq, Prod.mk.injEq, true_and]
      omega

/-- What the code computes (C46, `_partial`): the credit is the sum of the fees (saturated) minus the minimum fee for
every *compact certificate* of the group. Missing: the charge for the ordinary transactions. -/
theorem C46_fee_credit_partial (g : List SignedTx) (minFee : Nat) (hg : g.length < 2 ^ 64) :
    feeCredit g minFee =
      if minFee * certCount g < 2 ^ 64 ∧ minFee * certCount g ≤ min (feeSum g) (2 ^ 64 - 1) then
        .ok (min (feeSum g) (2 ^ 64 - 1) - minFee * certCount g)
      else .err () := by
  rw [feeCredit, feeLoop_eq g 0 0 (by omega) (by omega), Res.ok_bind]
  simp only [Nat.zero_add, checkedMul64, u64Lim]
  by_cases h1 : minFee * certCount g < 2 ^ 64
  · rw [if_pos h1]
    by_cases h2 : minFee * certCount g ≤ min (feeSum g) (2 ^ 64 - 1)
    · rw [if_pos ⟨h1, h2⟩]
      simp only
      rw [if_neg (by omega)]
    · rw [if_neg (by tauto)]
      simp only
      rw [if_pos (by omega)]
  · rw [if_neg h1, if_neg (by tauto)]

/-- The documented fee requirement of a group: the minimum fee for every transaction that is not a compact
certificate. -/
def feeRequired (g : List SignedTx) (minFee : Nat) : Nat := minFee * (g.length - certCount g)

/-- C46 is false: a group of two ordinary payments that pay nothing is accepted with credit 0, although twice the
minimum fee is required. -/
theorem C46_violated : ∃ g : List SignedTx, feeSum g < feeRequired g 1000 ∧ feeCredit g 1000 = .ok 0 :=
  ⟨[⟨[], none, none, toyPay 0, zero32⟩, ⟨[], none, none, toyPay 0, zero32⟩], by decide, by decide⟩

/-- C46 is false for all groups of ordinary transactions: they are accepted whatever they pay. -/
theorem C46_ordinary_groups_free (g : List SignedTx) (minFee : Nat) (hg : g.length < 2 ^ 64)
    (ho : ∀ s ∈ g, s.tx.fields.isCompactCert = false) : feeCredit g minFee = .ok (min (feeSum g) (2 ^ 64 - 1)) := by
  have h0 : certCount g = 0 := by
    rw [certCount, List.length_eq_zero_iff, List.filter_eq_nil_iff]
    intro s hs; simp [ho s hs]
  rw [C46_fee_credit_partial g minFee hg, h0]
  simp

/-- C46 is false in the other direction: a well-formed compact certificate pays no fee, yet its group is rejected. -/
theorem C46_cert_groups_rejected (g : List SignedTx) (minFee : Nat) (hg : g.length < 2 ^ 64) (hm : 0 < minFee)
    (s : SignedTx) (hs : s ∈ g) (hc : s.tx.fields.isCompactCert = true) (hf : feeSum g = 0) :
    feeCredit g minFee = .err () := by
  have h0 : 0 < certCount g := by
    rw [certCount, List.length_pos_iff_exists_mem]
    exact ⟨s, List.mem_filter.2 ⟨hs, hc⟩⟩
  have := Nat.mul_pos hm h0
  rw [C46_fee_credit_partial g minFee hg, if_neg]
  omega

/-! ## C47: signing -/

/-- C47: the signature verifies under the authorizer, if the scheme accepts its own signatures and no key pair has the
zero address. -/
theorem C47_authorizer_verifies (S : Multisig.Scheme) (enc : Transaction → Bytes) (tx : Transaction) (sk : S.Sk)
    (honest : ∀ m, S.verify (S.pub sk) m (S.sign sk m) = true) (hz : S.pub sk ≠ zero32) :
    (sign S enc tx sk).authorizer = S.pub sk ∧
    S.verify (sign S enc tx sk).authorizer (hashRep ⟨.transaction, enc tx⟩) (sign S enc tx sk).sig = true ∧
    (sign S enc tx sk).tx = tx ∧ (sign S enc tx sk).msig = none ∧ (sign S enc tx sk).lsig = none := by
  have h1 : (sign S enc tx sk).authorizer = S.pub sk := by
    rw [SignedTx.authorizer, sign]
    by_cases h : S.pub sk = tx.header.sender
    · simp [h]
    · simp [h, hz]
  refine ⟨h1, ?_, rfl, rfl, rfl⟩
  rw [h1]
  exact honest _

/-- C47: the auth address is recorded exactly when the signer is not the sender. -/
theorem C47_auth_address (S : Multisig.Scheme) (enc : Transaction → Bytes) (tx : Transaction) (sk : S.Sk)
    (hz : S.pub sk ≠ zero32) :
    (S.pub sk = tx.header.sender → (sign S enc tx sk).authAddr = zero32) ∧
    (S.pub sk ≠ tx.header.sender → (sign S enc tx sk).authAddr = S.pub sk) ∧
    ((sign S enc tx sk).authAddr = zero32 ↔ S.pub sk = tx.header.sender) := by
  rw [sign]
  by_cases h : S.pub sk = tx.header.sender
  · simp [h]
  · simp [h, hz]

/-- C47: signatures of two transactions are over the same bytes only if the transactions have the same encoding. -/
theorem C47_signed_bytes_inj (enc : Transaction → Bytes) (tx tx' : Transaction)
    (h : hashRep ⟨.transaction, enc tx⟩ = hashRep ⟨.transaction, enc tx'⟩) : enc tx = enc tx' := by
  have := C14_domain_separation _ _ h
  simpa using this

example : (sign toyScheme (fun _ => [9]) (toyPay 5) [1]).authorizer = [1] := by decide

/-! ## C48: relevant addresses -/

/-- The accounts a transaction touches directly: sender, fee sink, receivers, the closing target and, for asset
clawbacks, the account the asset is taken from. -/
inductive Touches (spec : SpecialAddresses) (tx : Transaction) : Bytes → Prop where
  | sender : Touches spec tx tx.header.sender
  | feeSink : Touches spec tx spec.feeSink
  | payReceiver (f : Payment) (h : tx.fields = .payment f) : Touches spec tx f.receiver
  | payClose (f : Payment) (c : Bytes) (h : tx.fields = .payment f) (hc : f.closeRemainderTo = some c) : Touches spec tx c
  | assetReceiver (f : AssetTransfer) (h : tx.fields = .assetTransfer f) : Touches spec tx f.assetReceiver
  | assetClose (f : AssetTransfer) (h : tx.fields = .assetTransfer f) (hc : f.assetCloseTo ≠ zero32) :
      Touches spec tx f.assetCloseTo
  | assetSender (f : AssetTransfer) (h : tx.fields = .assetTransfer f) (hc : f.assetSender ≠ zero32) :
      Touches spec tx f.assetSender

/-- C48: `match_address` is true for exactly the touched accounts. -/
theorem C48_match_iff (tx : Transaction) (spec : SpecialAddresses) (a : Bytes) :
    matchAddress tx a spec = true ↔ Touches spec tx a := by
  rw [matchAddress, List.contains_iff_mem, relevantAddrs]
  constructor
  · intro h
    simp only [List.mem_append, List.mem_cons, List.not_mem_nil, or_false] at h
    rcases h with (rfl | rfl) | h
    · exact .sender
    · exact .feeSink
    · cases hf : tx.fields with
      | payment f =>
        simp only [hf, List.mem_append, List.mem_cons, List.not_mem_nil, or_false] at h
        rcases h with rfl | h
        · exact .payReceiver f hf
        · cases hc : f.closeRemainderTo with
          | none => simp [hc] at h
          | some c =>
            simp [hc] at h
            subst h
            exact .payClose f a hf hc
      | assetTransfer f =>
        simp only [hf, List.mem_append, List.mem_cons, List.not_mem_nil, or_false] at h
        rcases h with (rfl | h) | h
        · exact .assetReceiver f hf
        · split at h
          · rename_i hc
            simp at h; subst h; exact .assetClose f hf hc
          · simp at h
        · split at h
          · rename_i hc
            simp at h; subst h; exact .assetSender f hf hc
          · simp at h
      | keyreg f => simp [hf] at h
      | assetConfig f => simp [hf] at h
      | assetFreeze f => simp [hf] at h
      | appCall f => simp [hf] at h
      | compactCert f => simp [hf] at h
  · intro h
    cases h with
    | sender => simp
    | feeSink => simp
    | payReceiver f h => simp [h]
    | payClose f c h hc => simp [h, hc]
    | assetReceiver f h => simp [h]
    | assetClose f h hc => simp [h, hc]
    | assetSender f h hc => simp [h, hc]

/-- C48: the receiver reported for a transaction is relevant, and payments report their receiver. -/
theorem C48_receiver_relevant (tx : Transaction) (spec : SpecialAddresses) (a : Bytes)
    (h : receiverAddress tx = some a) : matchAddress tx a spec = true := by
  rw [C48_match_iff]
  rw [receiverAddress] at h
  cases hf : tx.fields <;> simp [hf] at h
  · subst h; exact .payReceiver _ hf
  · subst h; exact .assetReceiver _ hf

example : matchAddress ⟨toyTxHeader, .payment ⟨[7], 5, some [8]⟩⟩ [8] ⟨[2], [3]⟩ = true ∧
    matchAddress ⟨toyTxHeader, .payment ⟨[7], 5, some [8]⟩⟩ [3] ⟨[2], [3]⟩ = false := by decide

/-! ## C107: amounts, receivers and sizes -/

/-- C107: exactly payments move algos: the amount of a payment is its amount, of everything else zero; the receiver is
reported for payments and asset transfers and for nothing else. -/
theorem C107_amount_and_receiver (tx : Transaction) :
    (∀ f, tx.fields = .payment f → txAmount tx = f.amount ∧ receiverAddress tx = some f.receiver) ∧
    (∀ f, tx.fields = .assetTransfer f → txAmount tx = 0 ∧ receiverAddress tx = some f.assetReceiver) ∧
    ((∀ f, tx.fields ≠ .payment f) → (∀ f, tx.fields ≠ .assetTransfer f) → txAmount tx = 0 ∧ receiverAddress tx = none) := by
  refine ⟨fun f h => ?_, fun f h => ?_, fun h1 h2 => ?_⟩
  · simp [txAmount, receiverAddress, h]
  · simp [txAmount, receiverAddress, h]
  · cases hf : tx.fields with
    | payment f => exact absurd hf (h1 f)
    | assetTransfer f => exact absurd hf (h2 f)
    | _ => simp [txAmount, receiverAddress, hf]

/-- C107: the size of a logic signature is the total number of bytes of its program and arguments, however the bytes are
split into arguments. -/
theorem C107_logicsig_size (l : LogicSig) : l.len = l.logic.length + (l.args.flatten).length := by
  have key : ∀ (args : List Bytes) (n : Nat), args.foldl (fun s a => s + a.length) n = n + args.flatten.length := by
    intro args
    induction args with
    | nil => intro n; simp
    | cons a args ih =>
      intro n
      rw [List.foldl_cons, ih, List.flatten_cons, List.length_append, Nat.add_assoc]
  rw [LogicSig.len, key]

example : (⟨[1, 2, 3], [], ⟨1, 1, []⟩, [[4], [], [5, 6]]⟩ : LogicSig).len = 6 := by decide

/-! ## C108: the sender of compact certificates -/

/-- C108: the reserved sender is the hash of the tag for special addresses followed by "CompactCertSender",
and of no other object: an object of any kind with that address gives a collision with this string. -/
theorem C108_reserved_sender (hash : Bytes → Bytes) (o : ToBeHashed) :
    compactCertSender hash = hash (HashId.specialAddr.bytes ++ "CompactCertSender".toList.map (fun c => UInt8.ofNat c.toNat)) ∧
    (compactCertSender hash = hashObj hash o →
      (o.id = .specialAddr ∧ o.data = "CompactCertSender".toList.map (fun c => UInt8.ofNat c.toNat)) ∨
      (hashRep o ≠ HashId.specialAddr.bytes ++ "CompactCertSender".toList.map (fun c => UInt8.ofNat c.toNat) ∧
        hash (hashRep o) = hash (HashId.specialAddr.bytes ++ "CompactCertSender".toList.map (fun c => UInt8.ofNat c.toNat)))) := by
  have hs : "CompactCertSender".toList.map (fun c => UInt8.ofNat c.toNat) =
      asciiBytes ['C', 'o', 'm', 'p', 'a', 'c', 't', 'C', 'e', 'r', 't', 'S', 'e', 'n', 'd', 'e', 'r'] := rfl
  rw [hs]
  refine ⟨rfl, fun h => ?_⟩
  by_cases he : hashRep o = hashRep ⟨.specialAddr, asciiBytes
      ['C', 'o', 'm', 'p', 'a', 'c', 't', 'C', 'e', 'r', 't', 'S', 'e', 'n', 'd', 'e', 'r']⟩
  · have := C14_domain_separation _ _ he
    rw [this]; exact Or.inl ⟨rfl, rfl⟩
  · exact Or.inr ⟨he, h.symm⟩

/-- C108: a well-formed compact certificate transaction is sent by exactly that sender, and carries no fee, note, group,
lease or rekeying. -/
theorem C108_only_sender (hash : Bytes → Bytes) (tx : Transaction) (spec : SpecialAddresses) (p : Params) (f : CompactCert)
    (hf : tx.fields = .compactCert f) (h : isWellFormed (compactCertSender hash) tx spec p = .ok ()) :
    tx.header.sender = compactCertSender hash ∧ tx.header.fee = 0 ∧ tx.header.note = [] ∧
    tx.header.group = List.replicate 32 0 ∧ tx.header.lease = List.replicate 32 0 ∧
    tx.header.rekeyTo = List.replicate 32 0 ∧ p.compactCertRounds ≠ 0 := by
  rw [isWellFormed] at h
  obtain ⟨_, h, _⟩ := Res.bind_eq_ok.1 h
  rw [checkFields, hf] at h
  simp only at h
  rw [checkCompactCert] at h
  rw [show List.replicate 32 (0 : UInt8) = zero32 from rfl]
  split at h
  · simp at h
  split at h
  · simp at h
  split at h
  · simp at h
  split at h
  · simp at h
  split at h
  · simp at h
  split at h
  · simp at h
  split at h
  · simp at h
  rename_i h1 h2 h3 h4 h5 h6 h7
  exact ⟨Classical.not_not.1 h2, Classical.not_not.1 h3, Classical.not_not.1 h4, Classical.not_not.1 h5,
    Classical.not_not.1 h7, Classical.not_not.1 h6, h1⟩

example : isWellFormed (compactCertSender fun _ => List.replicate 32 9)
    ⟨{ toyTxHeader with sender := List.replicate 32 9, fee := 0, note := [] }, .compactCert ⟨5⟩⟩
    ⟨List.replicate 32 2, List.replicate 32 3⟩ vFutureBase = .ok () := by decide +kernel

/-- A case of `C44_coherent_iff`: keys that may vote from the round after the last valid one. -/
example : checkCoherency ⟨[2], [3], 21, 500, 10, false⟩ toyTxHeader = .ok () ∧
    checkCoherency ⟨[2], [3], 22, 500, 10, false⟩ toyTxHeader ≠ .ok () := by
  refine ⟨(C44_coherent_iff _ _ (by decide)).1.2 (.inl (by unfold GoesOnline; decide)), fun h => ?_⟩
  rcases (C44_coherent_iff _ _ (by decide)).1.1 h with h | h
  · unfold GoesOnline at h; exact absurd h (by decide)
  · unfold GoesOffline at h; exact absurd h (by decide)

theorem v27_fits : ParamsFit v27Base := by unfold ParamsFit; decide +kernel

/-- A case of `C41_accepted_within_limits`, `C41_accepted_iff` and `C42_minimum_fee_always_rejected`. -/
example : TxLimits [1] (toyPay 1001) ⟨[2], [3]⟩ v27Base ∧ isWellFormed [1] (toyPay 2000) ⟨[2], [3]⟩ v27Base = .ok () ∧
    isWellFormed [1] (toyPay 1000) ⟨[2], [3]⟩ v27Base ≠ .ok () :=
  ⟨C41_accepted_within_limits _ _ _ _ v27_fits (by decide +kernel),
    (C41_accepted_iff _ _ _ _ v27_fits).2 ⟨toyPay_limits 2000 (by decide), trivial, .inr (.inr (by decide))⟩,
    C42_minimum_fee_always_rejected _ _ _ _ (by decide +kernel) (fun ⟨_, h⟩ => by cases h) (by decide +kernel)⟩

/-- A case of `C43_no_panic_partial` and `C43_no_panic_builtin_partial`. -/
example (fee : Nat) (p : Params) (h : lookup builtin .v28 = some p) : isWellFormed [1] (toyPay fee) ⟨[2], [3]⟩ v27Base ≠ .panic ∧
    isWellFormed [1] (toyPay fee) ⟨[2], [3]⟩ p ≠ .panic :=
  ⟨C43_no_panic_partial _ _ _ _ v27_fits trivial (by show (9 :: List.replicate 31 0 : Bytes) ≠ [3]; decide),
    C43_no_panic_builtin_partial _ _ _ .v28 p h (by show (9 :: List.replicate 31 0 : Bytes) ≠ [3]; decide)
      (by show 20 + 1 < 2 ^ 64; decide)⟩

/-- A case of `C43_rewards_pool_never_rejected`: a payment by the pool. -/
example : isWellFormed [1] (toyPay 1001) ⟨[2], 9 :: List.replicate 31 0⟩ v27Base = .panic :=
  C43_rewards_pool_never_rejected _ _ _ _ (by decide +kernel) (by decide +kernel) (by decide +kernel) rfl

/-- A case of `C45_index_of_address` and `C45_address_inverse`. -/
example : (∀ j < 2, addressByIndex toyCall j [5] ≠ .ok [2]) ∧ (∀ j, addressByIndex toyCall j [5] ≠ .ok [6]) ∧
    indexByAddress toyCall [1] [5] = .ok 1 :=
  ⟨(((C45_index_of_address toyCall [2] [5] (by decide)).1 2).1 (by decide)).2,
    (C45_index_of_address toyCall [6] [5] (by decide)).2.1.1 (by decide),
    (C45_address_inverse toyCall [1] [5] 1 (by decide) (by decide)).1 (by decide)⟩

/-- A compact certificate transaction. -/
def toyCertTx : SignedTx := ⟨List.replicate 64 0, none, none, ⟨{ toyTxHeader with fee := 0 }, .compactCert ⟨5⟩⟩, zero32⟩

/-- A signed payment. -/
def toyPaid : SignedTx := ⟨List.replicate 64 0, none, none, toyPay 1500, zero32⟩

/-- A case of `C46_fee_credit_partial`, `C46_ordinary_groups_free` and `C46_cert_groups_rejected`. -/
example : feeCredit [toyPaid, toyCertTx] 1000 = .ok 500 ∧ feeCredit [toyPaid, toyPaid] 1000 = .ok 3000 ∧
    feeCredit [toyCertTx] 1000 = .err () := by
  refine ⟨?_, ?_, C46_cert_groups_rejected _ _ (by decide) (by decide) toyCertTx (by simp) rfl rfl⟩
  · rw [C46_fee_credit_partial _ _ (by decide)]; decide
  · rw [C46_ordinary_groups_free _ _ (by decide) (fun s hs => by
      rcases List.mem_cons.1 hs with rfl | hs
      · rfl
      · rw [List.mem_singleton.1 hs]; rfl)]
    decide

/-- A case of `C47_authorizer_verifies` and `C47_auth_address`: signed with another key than the sender's. -/
example (honest : ∀ m, toyScheme.verify [1] m (toyScheme.sign ([1] : Bytes) m) = true) :
    toyScheme.verify (sign toyScheme (fun _ => [9]) (toyPay 5) [1]).authorizer (hashRep ⟨.transaction, [9]⟩)
      (sign toyScheme (fun _ => [9]) (toyPay 5) [1]).sig = true ∧
    (sign toyScheme (fun _ => [9]) (toyPay 5) [1]).authAddr = [1] :=
  ⟨(C47_authorizer_verifies toyScheme (fun _ => [9]) (toyPay 5) [1] honest (by show ([1] : Bytes) ≠ zero32; decide)).2.1,
    (C47_auth_address toyScheme (fun _ => [9]) (toyPay 5) [1] (by show ([1] : Bytes) ≠ zero32; decide)).2.1
      (by show ([1] : Bytes) ≠ 9 :: List.replicate 31 0; decide)⟩

end Verif.Props
