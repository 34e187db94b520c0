import Verif.Model.Release
import Verif.Props.AlgokeyPart
import Verif.Props.AccountManager
import Verif.Props.Balance
import Mathlib.Tactic.Ring
import Mathlib.Tactic.Linarith
/-!
# C177: builds without overflow checks

`Agree r r'`: the build with overflow checks crashes, or the other build has the same outcome.
-/

namespace Verif.Props
open Verif Verif.Consensus Verif.Balance Verif.Block Verif.Ots Verif.Tx Verif.Teal Verif.Account Verif.Multisig
open Verif.Release (wadd64 wsub64 wmul64 wadd32 wmul32)
open Verif.Algokey (PartOutcome)

/-- Where the build with overflow checks does not crash, the build without them has the same outcome. -/
def Agree {ε α : Type} (checked release : Res ε α) : Prop := checked ≠ .panic → release = checked

namespace Agree
variable {ε α β : Type}

theorem refl (r : Res ε α) : Agree r r := fun _ => rfl

theorem bind {r r' : Res ε α} {f f' : α → Res ε β} (h : Agree r r') (hf : ∀ a, Agree (f a) (f' a)) :
    Agree (r >>= f) (r' >>= f') := by
  cases r with
  | ok a => rw [h (by simp)]; exact hf a
  | err e => rw [h (by simp)]; exact fun _ => rfl
  | panic => intro hp; exact absurd rfl hp

theorem same {r : Res ε α} {f f' : α → Res ε β} (hf : ∀ a, r = .ok a → Agree (f a) (f' a)) :
    Agree (r >>= f) (r >>= f') := by
  cases r with
  | ok a => exact hf a rfl
  | err e => exact fun _ => rfl
  | panic => intro hp; exact absurd rfl hp

theorem ite {p : Prop} [Decidable p] {a a' b b' : Res ε α} (h1 : p → Agree a a') (h2 : ¬ p → Agree b b') :
    Agree (if p then a else b) (if p then a' else b') := by
  by_cases h : p
  · simpa [h] using h1 h
  · simpa [h] using h2 h

theorem add64 {a b : Nat} {f : Nat → Res ε β} {r : Res ε β} (h : a + b < u64Lim → wadd64 a b = a + b → Agree (f (a + b)) r) :
    Agree (addU64 a b >>= f) r := by
  unfold addU64
  by_cases hl : a + b < u64Lim
  · rw [if_pos hl]; exact h hl (Nat.mod_eq_of_lt hl)
  · rw [if_neg hl]; intro hp; exact absurd rfl hp

theorem sub64 {a b : Nat} {f : Nat → Res ε β} {r : Res ε β} (h : b ≤ a → wsub64 a b = a - b → Agree (f (a - b)) r) :
    Agree (subU a b >>= f) r := by
  unfold subU
  by_cases hl : b ≤ a
  · rw [if_pos hl]; exact h hl (if_pos hl)
  · rw [if_neg hl]; intro hp; exact absurd rfl hp

theorem mul64 {a b : Nat} {f : Nat → Res ε β} {r : Res ε β} (h : a * b < u64Lim → wmul64 a b = a * b → Agree (f (a * b)) r) :
    Agree (mulU64 a b >>= f) r := by
  unfold mulU64
  by_cases hl : a * b < u64Lim
  · rw [if_pos hl]; exact h hl (Nat.mod_eq_of_lt hl)
  · rw [if_neg hl]; intro hp; exact absurd rfl hp

theorem add32 {a b : Nat} {f : Nat → Res ε β} {r : Res ε β} (h : a + b < u32Lim → wadd32 a b = a + b → Agree (f (a + b)) r) :
    Agree (addU32 a b >>= f) r := by
  unfold addU32
  by_cases hl : a + b < u32Lim
  · rw [if_pos hl]; exact h hl (Nat.mod_eq_of_lt hl)
  · rw [if_neg hl]; intro hp; exact absurd rfl hp

theorem mul32 {a b : Nat} {f : Nat → Res ε β} {r : Res ε β} (h : a * b < u32Lim → wmul32 a b = a * b → Agree (f (a * b)) r) :
    Agree (mulU32 a b >>= f) r := by
  unfold mulU32
  by_cases hl : a * b < u32Lim
  · rw [if_pos hl]; exact h hl (Nat.mod_eq_of_lt hl)
  · rw [if_neg hl]; intro hp; exact absurd rfl hp

theorem tailAdd (a b : Nat) : Agree (addU64 a b : Res ε Nat) (.ok (wadd64 a b)) := by
  unfold addU64
  by_cases hl : a + b < u64Lim
  · rw [if_pos hl]; intro _; rw [wadd64, Nat.mod_eq_of_lt hl]
  · rw [if_neg hl]; intro hp; exact absurd rfl hp

theorem tailMul (a b : Nat) : Agree (mulU64 a b : Res ε Nat) (.ok (wmul64 a b)) := by
  unfold mulU64
  by_cases hl : a * b < u64Lim
  · rw [if_pos hl]; intro _; rw [wmul64, Nat.mod_eq_of_lt hl]
  · rw [if_neg hl]; intro hp; exact absurd rfl hp

end Agree

/-- The wrapping operations are those of the machine words. -/
theorem C177_wrapping (a b : Nat) (ha : a < 2 ^ 64) (hb : b < 2 ^ 64) :
    wadd64 a b = (UInt64.ofNat a + UInt64.ofNat b).toNat ∧
    wsub64 a b = (UInt64.ofNat a - UInt64.ofNat b).toNat ∧
    wmul64 a b = (UInt64.ofNat a * UInt64.ofNat b).toNat := by
  have h1 : (UInt64.ofNat a).toNat = a := UInt64.toNat_ofNat_of_lt ha
  have h2 : (UInt64.ofNat b).toNat = b := UInt64.toNat_ofNat_of_lt hb
  refine ⟨?_, ?_, ?_⟩
  · rw [UInt64.toNat_add, h1, h2]; rfl
  · rw [UInt64.toNat_sub, h1, h2]
    simp only [wsub64, u64Lim]
    split <;> omega
  · rw [UInt64.toNat_mul, h1, h2]; rfl

theorem C177_wrapping32 (a b : Nat) (ha : a < 2 ^ 32) (hb : b < 2 ^ 32) :
    wadd32 a b = (UInt32.ofNat a + UInt32.ofNat b).toNat ∧ wmul32 a b = (UInt32.ofNat a * UInt32.ofNat b).toNat := by
  have h1 : (UInt32.ofNat a).toNat = a := UInt32.toNat_ofNat_of_lt ha
  have h2 : (UInt32.ofNat b).toNat = b := UInt32.toNat_ofNat_of_lt hb
  refine ⟨?_, ?_⟩
  · rw [UInt32.toNat_add, h1, h2]; rfl
  · rw [UInt32.toNat_mul, h1, h2]; rfl

/-! ## Agreement, function by function -/

theorem C177_roundUp_partial (self r : Nat) : Agree (Units.roundUp self r) (Release.roundUp self r) := by
  unfold Units.roundUp Release.roundUp
  refine Agree.add64 fun _ e1 => Agree.sub64 fun _ e2 => ?_
  rw [e1, e2]
  exact Agree.same fun c _ => Agree.tailMul c r

theorem C177_addAmount_partial (a b : Nat) : Agree (Units.addAmount a b) (Release.addAmount a b) := Agree.tailAdd a b

theorem C177_pendingRewards_partial (proto : Params) (algos base level : Nat) :
    Agree (pendingRewards proto algos base level) (Release.pendingRewards proto algos base level) := by
  unfold pendingRewards Release.pendingRewards
  refine Agree.same fun u _ => Agree.sub64 fun _ e => ?_
  rw [e]
  exact Agree.tailMul _ _

theorem C177_withUpdatedRewards_partial (ad : Balance.Account) (proto : Params) (level : Nat) :
    Agree (withUpdatedRewards ad proto level) (Release.withUpdatedRewards ad proto level) := by
  unfold withUpdatedRewards Release.withUpdatedRewards
  refine Agree.ite (fun _ => ?_) (fun _ => Agree.refl _)
  refine Agree.same fun u _ => Agree.sub64 fun _ e1 => Agree.mul64 fun _ e2 => Agree.add64 fun _ e3 => ?_
  simp only [e1, e2, e3]
  exact Agree.refl _

theorem C177_money_partial (ad : Balance.Account) (proto : Params) (level : Nat) :
    Agree (money ad proto level) (Release.money ad proto level) :=
  Agree.bind (C177_withUpdatedRewards_partial ad proto level) fun _ => Agree.refl _

theorem C177_normalizedOnlineBalance_partial (ad : Balance.Account) (proto : Params) :
    Agree (normalizedOnlineBalance ad proto) (Release.normalizedOnlineBalance ad proto) := by
  unfold normalizedOnlineBalance Release.normalizedOnlineBalance
  refine Agree.ite (fun _ => Agree.refl _) (fun _ => Agree.add64 fun _ e => ?_)
  simp only [e]
  exact Agree.refl _

theorem toStateSchema_agree (kv : KeyValue) : ∀ s : Schema,
    Agree (kv.foldlM (fun s e => match e.2.tealType with
      | .bytes => do let n ← addU64 s.numByteSlice 1; pure { s with numByteSlice := n }
      | .uint => do let n ← addU64 s.numUint 1; pure { s with numUint := n }) s : Res Unit Schema)
    (.ok (kv.foldl (fun s e => match e.2.tealType with
      | .bytes => { s with numByteSlice := wadd64 s.numByteSlice 1 }
      | .uint => { s with numUint := wadd64 s.numUint 1 }) s)) := by
  induction kv with
  | nil => intro s; exact Agree.refl _
  | cons e kv ih =>
    intro s
    rw [List.foldlM_cons, List.foldl_cons]
    cases e.2.tealType with
    | bytes =>
      refine Agree.bind (r' := .ok { s with numByteSlice := wadd64 s.numByteSlice 1 })
        (f' := fun s => .ok (kv.foldl _ s)) (Agree.add64 fun _ h => ?_) ih
      rw [h]; exact Agree.refl _
    | uint =>
      refine Agree.bind (r' := .ok { s with numUint := wadd64 s.numUint 1 })
        (f' := fun s => .ok (kv.foldl _ s)) (Agree.add64 fun _ h => ?_) ih
      rw [h]; exact Agree.refl _

theorem C177_toStateSchema_partial (kv : KeyValue) : Agree (toStateSchema kv) (.ok (Release.toStateSchema kv)) :=
  toStateSchema_agree kv ⟨0, 0⟩

theorem applyProposal_agree (params : Params) (s : UpgradeState) (round : Nat) (vote : UpgradeVote) :
    Agree (applyProposal params s round vote) (Release.applyProposal params s round vote) := by
  unfold applyProposal Release.applyProposal
  refine Agree.ite (fun _ => ?_) (fun _ => Agree.refl _)
  refine Agree.ite (fun _ => Agree.refl _) (fun _ => ?_)
  refine Agree.ite (fun _ => Agree.refl _) (fun _ => ?_)
  refine Agree.add64 fun _ e1 => Agree.add64 fun _ e2 => ?_
  simp only [e1, e2]
  exact Agree.refl _

theorem applyApproval_agree (s : UpgradeState) (round : Nat) (vote : UpgradeVote) :
    Agree (applyApproval s round vote) (Release.applyApproval s round vote) := by
  unfold applyApproval Release.applyApproval
  refine Agree.ite (fun _ => ?_) (fun _ => Agree.refl _)
  refine Agree.ite (fun _ => Agree.refl _) (fun _ => ?_)
  refine Agree.ite (fun _ => Agree.refl _) (fun _ => ?_)
  refine Agree.add64 fun _ e1 => ?_
  simp only [e1]
  exact Agree.refl _

theorem C177_applyUpgradeVote_partial (tbl : Protocols) (s : UpgradeState) (round : Nat) (vote : UpgradeVote) :
    Agree (applyUpgradeVote tbl s round vote) (Release.applyUpgradeVote tbl s round vote) :=
  Agree.same fun params _ => Agree.bind (applyProposal_agree params s round vote) fun s1 =>
    Agree.bind (applyApproval_agree s1 round vote) fun _ => Agree.refl _

theorem C177_processUpgradeParams_partial (tbl : Protocols) (prevRound : Nat) (s : UpgradeState) :
    Agree (processUpgradeParams tbl prevRound s) (Release.processUpgradeParams tbl prevRound s) := by
  unfold processUpgradeParams Release.processUpgradeParams
  refine Agree.same fun params _ => Agree.add64 fun _ e => ?_
  simp only [e]
  exact Agree.same fun vote _ => Agree.bind (C177_applyUpgradeVote_partial tbl s _ vote) fun _ => Agree.refl _

theorem C177_nextVersionInfo_partial (round : Nat) (s : UpgradeState) :
    Agree (nextVersionInfo round s) (Release.nextVersionInfo round s) := by
  unfold nextVersionInfo Release.nextVersionInfo
  refine Agree.ite (fun _ => Agree.refl _) (fun _ => Agree.add64 fun _ e => ?_)
  rw [e]
  exact Agree.refl _

theorem refreshRate_agree (s : RewardsState) (nextRound : Nat) (proto : Params) (pool : Nat) :
    Agree (refreshRate s nextRound proto pool) (Release.refreshRate s nextRound proto pool) := by
  unfold refreshRate Release.refreshRate
  refine Agree.ite (fun _ => Agree.same fun rate _ => Agree.add64 fun _ e => ?_) (fun _ => Agree.refl _)
  rw [e]
  exact Agree.refl _

theorem C177_nextState_partial (s : RewardsState) (nextRound : Nat) (proto : Params) (pool totalUnits : Nat) :
    Agree (nextState s nextRound proto pool totalUnits) (Release.nextState s nextRound proto pool totalUnits) :=
  Agree.bind (refreshRate_agree s nextRound proto pool) fun _ => Agree.refl _

theorem C177_newTimestamp_partial (now prev inc : Nat) :
    Agree (newTimestamp now prev inc) (.ok (Release.newTimestamp now prev inc)) := by
  unfold newTimestamp Release.newTimestamp
  by_cases h1 : prev > 0
  · by_cases h2 : now < prev
    · simp only [if_pos h1, if_pos h2]; exact Agree.refl _
    · simp only [if_pos h1, if_neg h2]
      refine Agree.add64 fun _ e => ?_
      rw [e]; exact Agree.refl _
  · simp only [if_neg h1]; exact Agree.refl _

theorem C177_newBlock_partial {AD : Type} (env : Env AD) (tbl : Protocols) (now : Nat) (prev : BlockHeader) :
    Agree (newBlock env tbl now prev) (Release.newBlock env tbl now prev) := by
  unfold newBlock Release.newBlock
  have hp := C177_processUpgradeParams_partial tbl prev.body.round prev.upgradeState
  cases hc : processUpgradeParams tbl prev.body.round prev.upgradeState with
  | ok x =>
    rw [hp (by simp [hc]), hc]
    obtain ⟨vote, state⟩ := x
    simp only [Res.ok_bind]
    refine Agree.same fun params _ => ?_
    have ht := C177_newTimestamp_partial now prev.body.timestamp params.maxTimestampIncrement
    cases hn : newTimestamp now prev.body.timestamp params.maxTimestampIncrement with
    | ok t =>
      have ht' := ht (by simp [hn])
      rw [hn] at ht'
      cases ht'
      simp only [Res.ok_bind]
      refine Agree.add64 fun _ e => ?_
      rw [e]
      exact Agree.refl _
    | err e => intro _; rw [hn] at ht; exact absurd (ht (by simp)) (by simp)
    | panic => intro hp; exact absurd rfl hp
  | err e => intro hp; exact absurd rfl hp
  | panic => intro hp; exact absurd rfl hp

theorem checkTimestamp_agree (params : Params) (self prev : HeaderBody) :
    Agree (checkTimestamp params self prev) (Release.checkTimestamp params self prev) := by
  unfold checkTimestamp Release.checkTimestamp
  refine Agree.ite (fun _ => ?_) (fun _ => Agree.refl _)
  refine Agree.ite (fun _ => Agree.refl _) (fun _ => Agree.add64 fun _ e => ?_)
  rw [e]
  exact Agree.refl _

theorem C177_preCheck_partial {AD : Type} (env : Env AD) (tbl : Protocols) (self prev : BlockHeader)
    (h : (preCheck env tbl self prev).1 ≠ .panic) : Release.preCheck env tbl self prev = preCheck env tbl self prev := by
  unfold preCheck at h
  unfold preCheck Release.preCheck
  cases hl : lookup tbl self.upgradeState.current with
  | none => rfl
  | some params =>
    rw [hl] at h
    simp only at h ⊢
    by_cases hr : prev.body.round + 1 < u64Lim
    · have e : wadd64 prev.body.round 1 = prev.body.round + 1 := Nat.mod_eq_of_lt hr
      have e' : (addU64 prev.body.round 1 : Res Unit Nat) = .ok (prev.body.round + 1) := if_pos hr
      rw [e'] at h
      simp only at h
      rw [e, e']
      simp only
      by_cases h1 : prev.body.round + 1 ≠ self.body.round
      · rw [if_pos h1, if_pos h1]
      rw [if_neg h1, if_neg h1]
      rw [if_neg h1] at h
      by_cases h2 : self.body.branch ≠ headerHash env prev
      · rw [if_pos h2, if_pos h2]
      rw [if_neg h2, if_neg h2]
      rw [if_neg h2] at h
      have ha := C177_applyUpgradeVote_partial tbl prev.upgradeState (prev.body.round + 1) self.body.upgradeVote
      cases hc : applyUpgradeVote tbl prev.upgradeState (prev.body.round + 1) self.body.upgradeVote with
      | panic => rw [hc] at h; exact absurd rfl h
      | err x => rw [ha (by simp [hc]), hc]
      | ok s =>
        rw [ha (by simp [hc]), hc]
        rw [hc] at h
        simp only at h ⊢
        by_cases h3 : s ≠ self.upgradeState
        · rw [if_pos h3, if_pos h3]
        rw [if_neg h3, if_neg h3]
        rw [if_neg h3] at h
        rw [(Agree.bind (checkTimestamp_agree params self.body prev.body) fun _ => Agree.refl _) h]
    · have e' : (addU64 prev.body.round 1 : Res Unit Nat) = .panic := if_neg hr
      rw [e'] at h
      exact absurd rfl h

theorem genLoop_agree (S : Scheme) (E : Enc) (master : S.Sk) (eph : Nat → S.Sk) (start : Nat) (n : Nat) : ∀ i,
    Agree (genLoop S E master eph start i n) (.ok (Release.genLoop S E master eph start i n)) := by
  induction n with
  | zero => intro i; exact Agree.refl _
  | succ n ih =>
    intro i
    unfold genLoop Release.genLoop
    refine Agree.add64 fun _ e => ?_
    rw [e]
    exact Agree.bind (r' := .ok (Release.genLoop S E master eph start (i + 1) n)) (f' := fun l => .ok (_ :: l)) (ih (i + 1))
      fun _ => Agree.refl _

theorem C177_generate_partial (S : Scheme) (E : Enc) (master : S.Sk) (eph : Nat → S.Sk) (start num : Nat) :
    Agree (generate S E master eph start num) (.ok (Release.generate S E master eph start num)) :=
  Agree.bind (r' := .ok _) (genLoop_agree S E master eph start num 0) fun _ => Agree.refl _

theorem C177_sign_partial {S : Scheme} (E : Enc) (st : Secrets S) (id : Ident) (m : Bytes) (fresh : S.Sk) :
    Agree (Ots.sign E st id m fresh) (Release.sign E st id m fresh) := by
  unfold Ots.sign Release.sign
  refine Agree.add64 fun _ e => ?_
  rw [e]
  refine Agree.ite (fun _ => Agree.refl _) (fun _ => ?_)
  refine Agree.ite (fun _ => Agree.refl _) (fun _ => ?_)
  by_cases h : st.firstBatch = id.batch + 1
  · rw [if_pos h]; exact Agree.add64 fun _ _ => Agree.refl _
  · rw [if_neg h]; exact Agree.refl _

theorem C177_deleteBefore_partial {S : Scheme} (E : Enc) (st : Secrets S) (cur : Ident) (n : Nat) (fresh : Nat → S.Sk) :
    Agree (deleteBefore E st cur n fresh) (.ok (Release.deleteBefore E st cur n fresh)) := by
  unfold deleteBefore Release.deleteBefore
  refine Agree.add64 fun _ e => ?_
  simp only [e]
  by_cases h1 : cur.batch + 1 = st.firstBatch
  · simp only [if_pos h1]
    by_cases h2 : cur.offset > st.firstOffset
    · simp only [if_pos h2]; exact Agree.refl _
    · simp only [if_neg h2]; exact Agree.refl _
  simp only [if_neg h1]
  by_cases h2 : cur.batch + 1 < st.firstBatch
  · simp only [if_pos h2]; exact Agree.refl _
  simp only [if_neg h2]
  by_cases h3 : cur.batch - st.firstBatch > st.batches.length
  · simp only [if_pos h3]
    by_cases h4 : (!st.batches.isEmpty) = true
    · simp only [if_pos h4]; exact Agree.refl _
    · simp only [if_neg h4]; exact Agree.refl _
  simp only [if_neg h3]
  cases hd : st.batches.drop (cur.batch - st.firstBatch) with
  | nil => exact Agree.refl _
  | cons k rest =>
    refine Agree.add64 fun _ e' => ?_
    simp only [e']
    exact Agree.refl _

theorem checkCoherency_agree (f : Keyreg) (h : Tx.Header) :
    Agree (checkCoherency f h) (Release.checkCoherency f h) := by
  unfold checkCoherency Release.checkCoherency
  refine Agree.ite (fun _ => Agree.refl _) (fun _ => ?_)
  refine Agree.ite (fun _ => Agree.refl _) (fun _ => ?_)
  refine Agree.ite (fun _ => Agree.refl _) (fun _ => ?_)
  refine Agree.ite (fun _ => Agree.refl _) (fun _ => Agree.add64 fun _ e => ?_)
  rw [e]
  exact Agree.refl _

theorem checkPrograms_agree (f : AppCall) (proto : Params) (n : Nat) :
    Agree (checkPrograms f proto n) (Release.checkPrograms f proto n) := by
  unfold checkPrograms Release.checkPrograms
  refine Agree.add32 fun _ e1 => Agree.mul32 fun _ e2 => ?_
  simp only [e1, e2]
  refine Agree.ite (fun _ => Agree.refl _) (fun _ => ?_)
  refine Agree.ite (fun _ => Agree.refl _) (fun _ => Agree.mul32 fun _ e3 => ?_)
  rw [e3]
  exact Agree.refl _

theorem checkFields_agree (cc : Bytes) (tx : Transaction) (spec : SpecialAddresses) (proto : Params) :
    Agree (checkFields cc tx spec proto) (Release.checkFields cc tx spec proto) := by
  unfold checkFields Release.checkFields
  cases tx.fields with
  | keyreg f =>
    unfold checkKeyreg Release.checkKeyreg
    exact Agree.ite (fun _ => Agree.bind (checkCoherency_agree f tx.header) fun _ => Agree.refl _) (fun _ => Agree.refl _)
  | appCall f =>
    unfold checkAppCall Release.checkAppCall
    repeat' refine Agree.ite (fun _ => Agree.refl _) (fun _ => ?_)
    exact checkPrograms_agree f proto _
  | _ => exact Agree.refl _

theorem C177_isWellFormed_partial (cc : Bytes) (tx : Transaction) (spec : SpecialAddresses) (proto : Params) :
    Agree (isWellFormed cc tx spec proto) (Release.isWellFormed cc tx spec proto) :=
  Agree.bind (checkFields_agree cc tx spec proto) fun _ => Agree.refl _

theorem feeLoop_agree (g : List SignedTx) : ∀ count paid,
    Agree (feeLoop g count paid) (.ok (Release.feeLoop g count paid)) := by
  induction g with
  | nil => intro c p; exact Agree.refl _
  | cons s g ih =>
    intro c p
    unfold feeLoop Release.feeLoop
    by_cases h : s.tx.fields.isCompactCert = true
    · simp only [if_pos h]
      refine Agree.add64 fun _ e => ?_
      rw [e]; exact ih _ _
    · simp only [if_neg h]
      exact ih _ _

theorem C177_feeCredit_partial (g : List SignedTx) (minFee : Nat) :
    Agree (feeCredit g minFee) (Release.feeCredit g minFee) := by
  unfold feeCredit Release.feeCredit
  exact Agree.bind (r' := .ok _) (feeLoop_agree g 0 0) fun _ => Agree.refl _

theorem C177_indexByAddress_partial (f : AppCall) (target sender : Bytes) :
    Agree (indexByAddress f target sender) (Release.indexByAddress f target sender) := by
  unfold indexByAddress Release.indexByAddress
  refine Agree.ite (fun _ => Agree.refl _) (fun _ => ?_)
  cases position target f.accounts with
  | none => exact Agree.refl _
  | some i => exact Agree.tailAdd i 1

theorem C177_indexByAppId_partial (f : AppCall) (app : Nat) :
    Agree (indexByAppId f app) (Release.indexByAppId f app) := by
  unfold indexByAppId Release.indexByAppId
  refine Agree.ite (fun _ => Agree.refl _) (fun _ => ?_)
  cases position app f.foreignApps with
  | none => exact Agree.refl _
  | some i => exact Agree.tailAdd i 1

theorem C177_deleteOldKeys_partial {S : Scheme} (E : Enc) (K : Keys S) (p : Participation S) (current dd : Nat)
    (fresh : Nat → S.Sk) :
    Agree (Account.deleteOldKeys E K p current dd fresh) (Release.deleteOldKeys E K p current dd fresh) := by
  unfold Account.deleteOldKeys Release.deleteOldKeys
  refine Agree.same fun id _ => ?_
  have h := C177_deleteBefore_partial E p.voting id (if p.keyDilution = 0 then dd else p.keyDilution) fresh
  cases hc : deleteBefore E p.voting id (if p.keyDilution = 0 then dd else p.keyDilution) fresh with
  | ok v => have := h (by simp [hc]); rw [hc] at this; cases this; exact Agree.refl _
  | err e => intro hp; exact absurd rfl hp
  | panic => intro hp; exact absurd rfl hp

theorem C177_fillDb_partial {G : Type} {S : Scheme} (E : Enc) (K : Keys S) (C : Vrf.Curve G) [AddCommGroup G]
    (master : S.Sk) (eph : Nat → S.Sk) (seed parent : Bytes) (first last dilution : Nat) :
    Agree (fillDb E K C master eph seed parent first last dilution)
      (Release.fillDb E K C master eph seed parent first last dilution) := by
  unfold fillDb Release.fillDb
  refine Agree.ite (fun _ => Agree.refl _) (fun _ => Agree.same fun a _ => Agree.same fun b _ => ?_)
  refine Agree.sub64 fun _ e1 => Agree.add64 fun _ e2 => ?_
  simp only [e1, e2]
  have h := C177_generate_partial S E master eph a.batch (b.batch - a.batch + 1)
  cases hc : generate S E master eph a.batch (b.batch - a.batch + 1) with
  | ok v => have := h (by simp [hc]); rw [hc] at this; cases this; exact Agree.refl _
  | err e => intro hp; exact absurd rfl hp
  | panic => intro hp; exact absurd rfl hp

theorem C177_nextRound_partial (header : Block.HeaderBody) (ccSigs : Bytes → Option Nat) (certRounds : Nat)
    (parent : Bytes) :
    Agree (nextRound header ccSigs certRounds parent) (Release.nextRound header ccSigs certRounds parent) := by
  unfold nextRound Release.nextRound
  refine Agree.add64 fun _ e1 => ?_
  simp only [e1]
  refine Agree.same fun cert _ => Agree.ite (fun _ => ?_) (fun _ => Agree.refl _)
  refine Agree.add64 fun _ e2 => ?_
  simp only [e2]
  refine Agree.same fun signed _ => ?_
  by_cases h : signed ≥ cert.nextRound + 1
  · simp only [if_pos h]
    refine Agree.bind (r' := .ok (wadd64 signed (wadd64 certRounds 1))) ?_ fun _ => Agree.refl _
    refine Agree.add64 fun _ e3 => ?_
    rw [e3]
    exact Agree.tailAdd _ _
  · simp only [if_neg h]
    exact Agree.refl _

theorem deleteLoop_agree {S : Scheme} (E : Enc) (K : Keys S) (header : Block.HeaderBody) (ccSigs : Bytes → Option Nat)
    (certRounds dd : Nat) (fresh : Identity → Nat → S.Sk) (l : List (Identity × Participation S)) :
    Agree (deleteLoop E K header ccSigs certRounds dd fresh l) (Release.deleteLoop E K header ccSigs certRounds dd fresh l) := by
  induction l with
  | nil => exact Agree.refl _
  | cons a l ih =>
    obtain ⟨id, p⟩ := a
    unfold deleteLoop Release.deleteLoop
    refine Agree.bind (C177_nextRound_partial header ccSigs certRounds p.parent) fun next => ?_
    refine Agree.bind (C177_deleteOldKeys_partial E K p next dd (fresh id)) fun x => ?_
    exact Agree.bind ih fun _ => Agree.refl _

theorem C177_manager_partial {S : Scheme} (E : Enc) (K : Keys S) (tbl : Protocols) (m : Manager S)
    (header : Block.BlockHeader) (ccSigs : Bytes → Option Nat) (dd : Nat) (fresh : Identity → Nat → S.Sk)
    (order : List (Identity × Participation S) → List (Identity × Participation S)) :
    Agree (m.deleteOldKeys E K tbl header ccSigs dd fresh order)
      (Release.managerDeleteOldKeys E K tbl m header ccSigs dd fresh order) :=
  Agree.same fun _ _ => Agree.bind (deleteLoop_agree E K header.body ccSigs _ dd fresh _) fun _ => Agree.refl _

theorem dilutionOf_agree (d first last : Nat) : Agree (Algokey.dilutionOf d first last) (Release.dilutionOf d first last) := by
  unfold Algokey.dilutionOf Release.dilutionOf
  refine Agree.ite (fun _ => Agree.sub64 fun _ e => ?_) (fun _ => Agree.refl _)
  rw [e]
  exact Agree.tailAdd _ _

theorem C177_partGenerate_partial {G : Type} [AddCommGroup G] {S : Scheme} (hash : Bytes → Bytes) (E : Enc) (K : Keys S)
    (C : Vrf.Curve G) (master : S.Sk) (eph : Nat → S.Sk) (seed : Bytes) (file : Algokey.Text)
    (first last d : Nat) (parent : Bytes) (s : Store)
    (h : (Algokey.partGenerate hash E K C master eph seed file first last d parent s).exit ≠ .panicked) :
    Release.partGenerate hash E K C master eph seed first last d parent s =
      Algokey.partGenerate hash E K C master eph seed file first last d parent s := by
  unfold Algokey.partGenerate at h
  unfold Algokey.partGenerate Release.partGenerate
  have hd := dilutionOf_agree d first last
  cases hc : Algokey.dilutionOf d first last with
  | ok n =>
    rw [hc] at h
    rw [hd (by simp [hc]), hc]
    simp only at h ⊢
    cases ha : Address.fromStr hash parent with
    | ok a =>
      rw [ha] at h
      simp only at h ⊢
      have hf := C177_fillDb_partial E K C master eph seed a first last n
      cases hx : fillDb E K C master eph seed a first last n with
      | ok x => rw [hf (by simp [hx]), hx]
      | err e => rw [hf (by simp [hx]), hx]
      | panic => rw [hx] at h; exact absurd rfl h
    | err e => rfl
    | panic => rfl
  | err e => rw [hc] at h; exact absurd rfl h
  | panic => rw [hc] at h; exact absurd rfl h

/-! ## What the build without checks does where the other one crashes -/

/-- The new balance is right modulo `2^64`, so it is the true amount exactly if that is a `u64`. -/
theorem C177_balance_exact (ad : Balance.Account) (proto : Params) (level : Nat) (hs : ad.status ≠ .notParticipating)
    (hu : proto.rewardUnit ≠ 0) (hb : ad.rewardsBase < 2 ^ 64) (hl : level < 2 ^ 64) :
    ∃ ad', Release.withUpdatedRewards ad proto level = .ok ad' ∧
      (ad'.microAlgos : ℤ) = ((ad.microAlgos : ℤ) +
        ((ad.microAlgos / proto.rewardUnit : ℕ) : ℤ) * ((level : ℤ) - ad.rewardsBase)) % 2 ^ 64 ∧
      ad'.rewardsBase = level ∧ ad'.status = ad.status ∧
      ((ad'.microAlgos : ℤ) = (ad.microAlgos : ℤ) +
          ((ad.microAlgos / proto.rewardUnit : ℕ) : ℤ) * ((level : ℤ) - ad.rewardsBase) ↔
        0 ≤ (ad.microAlgos : ℤ) + ((ad.microAlgos / proto.rewardUnit : ℕ) : ℤ) * ((level : ℤ) - ad.rewardsBase) ∧
        (ad.microAlgos : ℤ) + ((ad.microAlgos / proto.rewardUnit : ℕ) : ℤ) * ((level : ℤ) - ad.rewardsBase) < 2 ^ 64) := by
  have key : ((wadd64 ad.microAlgos (wmul64 (ad.microAlgos / proto.rewardUnit) (wsub64 level ad.rewardsBase)) : ℕ) : ℤ) =
      ((ad.microAlgos : ℤ) + ((ad.microAlgos / proto.rewardUnit : ℕ) : ℤ) * ((level : ℤ) - ad.rewardsBase)) % 2 ^ 64 := by
    generalize ad.microAlgos / proto.rewardUnit = u
    generalize ad.microAlgos = a
    generalize ad.rewardsBase = b at *
    have hd : ∃ k : ℤ, ((wsub64 level b : ℕ) : ℤ) = (level : ℤ) - b + 2 ^ 64 * k := by
      unfold wsub64 u64Lim
      split
      · exact ⟨0, by omega⟩
      · exact ⟨1, by omega⟩
    obtain ⟨k, hk⟩ := hd
    unfold wadd64 wmul64 u64Lim
    push_cast
    rw [hk, Int.add_emod_emod]
    have : (a : ℤ) + u * ((level : ℤ) - b + 2 ^ 64 * k) = a + u * ((level : ℤ) - b) + 2 ^ 64 * (u * k) := by ring
    rw [this]
    exact Int.add_mul_emod_self_left _ _ _
  refine ⟨{ ad with
    microAlgos := wadd64 ad.microAlgos (wmul64 (ad.microAlgos / proto.rewardUnit) (wsub64 level ad.rewardsBase))
    rewardsBase := level
    rewarded := (ad.rewarded + wmul64 (ad.microAlgos / proto.rewardUnit) (wsub64 level ad.rewardsBase)) % u64Lim },
    ?_, key, rfl, rfl, ?_⟩
  · simp [Release.withUpdatedRewards, hs, divU, hu]
  · simp only
    rw [key]
    constructor
    · intro h
      rw [← h]
      exact ⟨Int.emod_nonneg _ (by norm_num), Int.emod_lt_of_pos _ (by norm_num)⟩
    · rintro ⟨h1, h2⟩
      exact Int.emod_eq_of_lt h1 h2

/-- An account that has earned rewards can lose almost all of its money. -/
theorem C177_violated_balance : ∃ (ad ad' : Balance.Account) (level : Nat), ad.microAlgos < 2 ^ 64 ∧
    ad.rewardsBase ≤ level ∧ level < 2 ^ 64 ∧ withUpdatedRewards ad v30Base level = .panic ∧
    Release.withUpdatedRewards ad v30Base level = .ok ad' ∧ ad'.microAlgos * 1000000 ≤ ad.microAlgos :=
  ⟨{ toyAccount with status := .online, microAlgos := 2 ^ 64 - 1, rewardsBase := 0 },
    { toyAccount with status := .online, microAlgos := 18446744073708, rewardsBase := 1,
                      rewarded := (toyAccount.rewarded + 18446744073709) % u64Lim }, 1,
    by decide, by decide, by decide, by decide +kernel, by decide +kernel, by decide +kernel⟩

/-- A key registration valid up to the last round is refused, with a reason that does not apply, instead of crashing. -/
theorem C177_violated_keyreg (f : Keyreg) (h : Tx.Header) (hv : h.lastValid = 2 ^ 64 - 1) (h1 : 0 < f.voteFirst)
    (h2 : f.voteFirst ≤ f.voteLast) (h3 : f.votePk ≠ Ots.defaultPk) (h4 : f.selectionPk ≠ defaultVrfPk)
    (h5 : f.voteKeyDilution ≠ 0) :
    checkCoherency f h = .panic ∧
      Release.checkCoherency f h = .err .keyregGoingOnlineWithFirstVoteAfterLastValid := by
  have a1 : ¬ f.voteFirst > f.voteLast := by omega
  have a2 : f.voteLast ≠ 0 := by omega
  have a3 : wadd64 h.lastValid 1 = 0 := by rw [hv]; rfl
  constructor
  · simp [checkCoherency, a1, a2, h3, h4, h5, addU64, hv]
  · simp [Release.checkCoherency, a1, a2, h3, h4, h5, a3, h1]

/-- Close to the end of time no timestamp at all is accepted, and the one chosen for a new block lies before its parent. -/
theorem C177_violated_timestamp (params : Params) (self prev : HeaderBody) (now : Nat)
    (hp : prev.timestamp < 2 ^ 64) (hi : params.maxTimestampIncrement < 2 ^ 64)
    (ho : 2 ^ 64 ≤ prev.timestamp + params.maxTimestampIncrement) :
    (∃ e, Release.checkTimestamp params self prev = .err e) ∧
    (prev.timestamp ≤ now → Release.newTimestamp now prev.timestamp params.maxTimestampIncrement < prev.timestamp ∧
      newTimestamp now prev.timestamp params.maxTimestampIncrement = .panic) := by
  have h0 : prev.timestamp > 0 := by omega
  have hw : wadd64 prev.timestamp params.maxTimestampIncrement =
      prev.timestamp + params.maxTimestampIncrement - 2 ^ 64 := by
    unfold wadd64 u64Lim; omega
  constructor
  · by_cases h1 : self.timestamp < prev.timestamp
    · exact ⟨.badEarlyTimestamp self.timestamp prev.timestamp, by simp [Release.checkTimestamp, h0, h1]⟩
    · refine ⟨.badLateTimestamp self.timestamp prev.timestamp params.maxTimestampIncrement, ?_⟩
      have h2 : self.timestamp > wadd64 prev.timestamp params.maxTimestampIncrement := by rw [hw]; omega
      simp [Release.checkTimestamp, h0, h1, h2]
  · intro hn
    have h1 : ¬ now < prev.timestamp := by omega
    have h2 : now > wadd64 prev.timestamp params.maxTimestampIncrement := by rw [hw]; omega
    refine ⟨?_, ?_⟩
    · rw [Release.newTimestamp, if_pos h0, if_neg h1, if_pos h2, hw]; omega
    · have h3 : ¬ prev.timestamp + params.maxTimestampIncrement < u64Lim := by unfold u64Lim; omega
      rw [newTimestamp, if_pos h0, if_neg h1, addU64, if_neg h3]; rfl

/-- Deleting keys up to the last batch deletes nothing. -/
theorem C177_violated_delete {S : Scheme} (E : Enc) (st : Secrets S) (offset n : Nat) (fresh : Nat → S.Sk)
    (h : 0 < st.firstBatch) :
    deleteBefore E st ⟨2 ^ 64 - 1, offset⟩ n fresh = .panic ∧
      Release.deleteBefore E st ⟨2 ^ 64 - 1, offset⟩ n fresh = st := by
  constructor
  · rfl
  · have e : wadd64 (2 ^ 64 - 1) 1 = 0 := rfl
    simp only [Release.deleteBefore, e]
    rw [if_neg (by omega), if_pos h]

/-- Keys for all rounds, one batch per round: stored and shown as valid for all of them, but there is no key. -/
theorem C177_violated_generate {G : Type} {S : Scheme} (E : Enc) (K : Keys S) (C : Vrf.Curve G) [AddCommGroup G]
    (master : S.Sk) (eph : Nat → S.Sk) (seed parent : Bytes) :
    fillDb E K C master eph seed parent 0 (2 ^ 64 - 1) 1 = .panic ∧
    ∃ p, Release.fillDb E K C master eph seed parent 0 (2 ^ 64 - 1) 1 = .ok (p, persist K p) ∧
      p.firstValid = 0 ∧ p.lastValid = 2 ^ 64 - 1 ∧ p.voting.batches = [] ∧ p.voting.offsets = [] := by
  constructor
  · rfl
  · exact ⟨_, rfl, rfl, rfl, rfl, rfl⟩

/-- A proposal near the last round gets a voting deadline that has already passed. -/
theorem C177_violated_proposal (params : Params) (s : UpgradeState) (round : Nat) (vote : UpgradeVote)
    (h1 : vote.propose ≠ s.current) (h2 : s.next = some s.current) (h3 : vote.delay ≤ params.maxUpgradeWaitRounds)
    (h4 : params.minUpgradeWaitRounds ≤ vote.delay) (hr : round < 2 ^ 64) (hv : params.upgradeVoteRounds < 2 ^ 64)
    (ho : 2 ^ 64 ≤ round + params.upgradeVoteRounds) :
    applyProposal params s round vote = .panic ∧
    ∃ s', Release.applyProposal params s round vote = .ok s' ∧ s'.next = some vote.propose ∧ s'.voteBefore < round := by
  have h5 : ¬ (vote.delay > params.maxUpgradeWaitRounds ∨ vote.delay < params.minUpgradeWaitRounds) := by omega
  have hw : wadd64 round params.upgradeVoteRounds = round + params.upgradeVoteRounds - 2 ^ 64 := by
    unfold wadd64 u64Lim; omega
  have h6 : ¬ round + params.upgradeVoteRounds < u64Lim := by unfold u64Lim; omega
  constructor
  · simp only [applyProposal, if_pos h1, h2, ne_eq, not_true_eq_false, if_false, if_neg h5, addU64, if_neg h6,
      Res.panic_bind]
  · refine ⟨{ s with
      next := some vote.propose
      approvals := 0
      voteBefore := wadd64 round params.upgradeVoteRounds
      switchOn := wadd64 (wadd64 round params.upgradeVoteRounds)
        (if vote.delay = 0 then params.defaultUpgradeWaitRounds else vote.delay) }, ?_, rfl, ?_⟩
    · simp only [Release.applyProposal, if_pos h1, h2, ne_eq, not_true_eq_false, if_false, if_neg h5]
    · simp only [hw]; omega

/-- The block after the last round is round zero again. -/
theorem C177_violated_round (s : UpgradeState) (h : ¬ (2 ^ 64 - 1 ≥ s.voteBefore ∧ 2 ^ 64 - 1 < s.switchOn)) :
    nextVersionInfo (2 ^ 64 - 1) s = .panic ∧
      Release.nextVersionInfo (2 ^ 64 - 1) s = .ok (some s.current, 0, true) := by
  constructor
  · rw [nextVersionInfo, if_neg h]; rfl
  · rw [Release.nextVersionInfo, if_neg h]; rfl

/-- With a large page size set by an override, an application with extra pages has a smaller limit than one without. -/
theorem C177_violated_pages (f : AppCall) (proto : Params) (h : proto.maxAppProgramLen = 2 ^ 31)
    (hp : f.approvalProgram ≠ []) :
    checkPrograms f proto 1 = .panic ∧
      Release.checkPrograms f proto 1 = .err (.approvalProgramTooLong f.approvalProgram.length 0) := by
  have e : wmul32 (wadd32 1 1) proto.maxAppProgramLen = 0 := by rw [h]; rfl
  have hl : f.approvalProgram.length > 0 := List.length_pos_of_ne_nil hp
  constructor
  · simp only [checkPrograms, h]; rfl
  · simp only [Release.checkPrograms, e, if_pos hl]

/-- The explicit panics stay: the normalized balance still crashes for balances whose product with the reward unit is too
large, and for levels whose sum with the unit wraps to zero, and for no others. -/
theorem C177_normalized_crash_iff (ad : Balance.Account) (proto : Params) :
    Release.normalizedOnlineBalance ad proto = .panic ↔
      ad.status = .online ∧ (2 ^ 64 ≤ ad.microAlgos * proto.rewardUnit ∨
        (ad.rewardsBase + proto.rewardUnit) % 2 ^ 64 = 0) := by
  unfold Release.normalizedOnlineBalance
  by_cases h : ad.status ≠ .online
  · simp [h]
  · rw [if_neg h]
    have h' := Classical.not_not.1 h
    simp only [h', true_and, checkedMul64]
    by_cases hm : ad.microAlgos * proto.rewardUnit < u64Lim
    · have hm' : ¬ 2 ^ 64 ≤ ad.microAlgos * proto.rewardUnit := by unfold u64Lim at hm; omega
      simp only [if_pos hm]
      by_cases hz : wadd64 ad.rewardsBase proto.rewardUnit = 0
      · rw [if_pos hz]; simp only [true_iff]; exact Or.inr hz
      · rw [if_neg hz]
        simp only [reduceCtorEq, false_iff, not_or]
        exact ⟨hm', hz⟩
    · have hm' : 2 ^ 64 ≤ ad.microAlgos * proto.rewardUnit := by unfold u64Lim at hm; omega
      simp only [if_neg hm, true_iff]
      exact Or.inl hm'

/-- After the last round comes round zero, for the blocks that are made and for those that are accepted. -/
theorem C177_violated_last_round {AD : Type} (env : Env AD) (tbl : Protocols) (now : Nat) (self prev prev' : BlockHeader)
    (b : Block AD) (h : prev.body.round = 2 ^ 64 - 1) :
    (Release.newBlock env tbl now prev = .ok (b, prev') → b.header.body.round = 0) ∧
    newBlock env tbl now prev = .panic ∧
    (∀ p, lookup tbl self.upgradeState.current = some p → self.body.round ≠ 0 →
      (Release.preCheck env tbl self prev).1 = .err (.wrongRound 0 self.body.round)) := by
  have hw : wadd64 prev.body.round 1 = 0 := by rw [h]; rfl
  have ha : ∀ {ε : Type}, (addU64 prev.body.round 1 : Res ε Nat) = .panic := by intro ε; rw [h]; rfl
  refine ⟨?_, ?_, ?_⟩
  · intro hb
    unfold Release.newBlock at hb
    obtain ⟨x, _, hb⟩ := Res.bind_eq_ok.1 hb
    obtain ⟨params, _, hb⟩ := Res.bind_eq_ok.1 hb
    simp only at hb
    obtain ⟨root, _, hb⟩ := Res.bind_eq_ok.1 hb
    simp only [Res.ok.injEq, Prod.mk.injEq] at hb
    rw [← hb.1]
    exact hw
  · unfold newBlock processUpgradeParams
    cases lookup tbl prev.upgradeState.current with
    | none => rfl
    | some params => simp only [Res.ofOption_some, Res.ok_bind, ha, Res.panic_bind]
  · intro p hp hne
    have hne' : (0 : Nat) ≠ self.body.round := fun e => hne e.symm
    simp only [Release.preCheck, hp, hw, if_pos hne']

example : withUpdatedRewards toyAccount toyParams 5 ≠ .panic := by decide +kernel
example : ∃ st : Secrets toyScheme, 0 < st.firstBatch ∧ st.batches ≠ [] :=
  ⟨⟨[1], 3, [⟨([2] : Bytes), [3]⟩], 0, [], [], []⟩, by decide, by simp⟩
example : (∃ f : Keyreg, 0 < f.voteFirst ∧ f.voteFirst ≤ f.voteLast ∧ f.votePk ≠ Ots.defaultPk ∧
    f.selectionPk ≠ defaultVrfPk ∧ f.voteKeyDilution ≠ 0) :=
  ⟨⟨[1], [1], 1, 5, 10, false⟩, by decide, by decide, by decide, by decide, by decide⟩

/-- A case of `C177_wrapping` and `C177_wrapping32`. -/
example : wsub64 3 5 = (UInt64.ofNat 3 - UInt64.ofNat 5).toNat ∧ wmul32 (2 ^ 31) 2 = (UInt32.ofNat (2 ^ 31) * UInt32.ofNat 2).toNat ∧
    wsub64 3 5 = 2 ^ 64 - 2 ∧ wmul32 (2 ^ 31) 2 = 0 :=
  ⟨(C177_wrapping 3 5 (by decide) (by decide)).2.1, (C177_wrapping32 (2 ^ 31) 2 (by decide) (by decide)).2, by decide, by decide⟩

/-- A case of `C177_preCheck_partial`: the block that `C76_not_repeatable` accepts. -/
example {AD : Type} (env : Env AD) (self prev : BlockHeader) (h : (preCheck env builtin self prev).1 = Res.ok ()) :
    (Release.preCheck env builtin self prev).1 = Res.ok () := by
  rw [C177_preCheck_partial env builtin self prev (by rw [h]; simp), h]

/-- A case of `C177_balance_exact`: a base above the level, where the checked build crashes. -/
example : withUpdatedRewards toyAccount toyParams 2 = .panic ∧ ∃ ad', Release.withUpdatedRewards toyAccount toyParams 2 = .ok ad' ∧
    (ad'.microAlgos : ℤ) = (105 + 10 * (2 - toyAccount.rewardsBase : ℤ)) % 2 ^ 64 := by
  refine ⟨by decide +kernel, ?_⟩
  obtain ⟨a, h, h1, _⟩ := C177_balance_exact toyAccount toyParams 2 (by decide) (by decide) (by decide) (by decide)
  exact ⟨a, h, h1⟩

/-- A case of `C177_violated_keyreg`. -/
example : checkCoherency ⟨[1], [1], 1, 5, 10, false⟩ { Tx.Header.default with lastValid := 2 ^ 64 - 1 } = .panic :=
  (C177_violated_keyreg ⟨[1], [1], 1, 5, 10, false⟩ _ rfl (by decide) (by decide) (by decide) (by decide) (by decide)).1

/-- A case of `C177_violated_timestamp`. -/
example : newTimestamp (2 ^ 64 - 1) (2 ^ 64 - 10) v30Base.maxTimestampIncrement = .panic ∧
    Release.newTimestamp (2 ^ 64 - 1) (2 ^ 64 - 10) v30Base.maxTimestampIncrement < 2 ^ 64 - 10 := by
  have h := (C177_violated_timestamp v30Base ⟨0, [], [], [], 0, [], [], RewardsState.default, UpgradeVote.default, 0, none⟩
    ⟨0, [], [], [], 2 ^ 64 - 10, [], [], RewardsState.default, UpgradeVote.default, 0, none⟩ (2 ^ 64 - 1)
    (by show 2 ^ 64 - 10 < 2 ^ 64; decide) (by decide +kernel) (by decide +kernel)).2 (by show 2 ^ 64 - 10 ≤ 2 ^ 64 - 1; decide)
  exact ⟨h.2, h.1⟩

/-- A case of `C177_violated_delete`: the keys of three batches. -/
example (fresh : Nat → toyScheme.Sk) : ∃ st : Secrets toyScheme, st.batches ≠ [] ∧
    deleteBefore toyOtsEnc st ⟨2 ^ 64 - 1, 5⟩ 10 fresh = .panic :=
  ⟨⟨[1], 3, [⟨([2] : Bytes), [3]⟩], 0, [], [], []⟩, by simp, (C177_violated_delete toyOtsEnc _ 5 10 fresh (by decide)).1⟩

/-- A case of `C177_violated_proposal` and `C177_violated_round`. -/
example : applyProposal v30Base ⟨.v29, some .v29, 0, 0, 0⟩ (2 ^ 64 - 5) ⟨.v30, v30Base.minUpgradeWaitRounds, false⟩ = .panic ∧
    nextVersionInfo (2 ^ 64 - 1) ⟨.v29, none, 0, 0, 0⟩ = .panic :=
  ⟨(C177_violated_proposal v30Base ⟨.v29, some .v29, 0, 0, 0⟩ (2 ^ 64 - 5) ⟨.v30, v30Base.minUpgradeWaitRounds, false⟩ (by decide) rfl
    (by decide +kernel) (by decide +kernel) (by decide) (by decide +kernel) (by decide +kernel)).1,
    (C177_violated_round ⟨.v29, none, 0, 0, 0⟩ (by decide)).1⟩

/-- A case of `C177_violated_pages`. -/
example : ∃ f : AppCall, checkPrograms f { v30Base with maxAppProgramLen := 2 ^ 31 } 1 = .panic :=
  ⟨⟨0, .noOp, [], [], [], [], ⟨0, 0⟩, ⟨0, 0⟩, [1], [1], 1⟩, (C177_violated_pages _ _ rfl (by simp)).1⟩

end Verif.Props
